import Verif.Model.Format
import Verif.Py.Err

/-!
# Storing and retrieving the completeness table

Model of `np.savetxt(file, table, fmt='%10.5f', delimiter=',')` (mtoolkit/jobs.py:278-279) and of
`np.genfromtxt(file, delimiter=',').reshape((-1, 2))` (mtoolkit/jobs.py:293-295) as of numpy 1.6 (`npyio.py`, `_iotools.py`).
-/

namespace Verif.Table

open Verif Verif.EqCatalog

section
variable {F : Type}

/-- One line of `np.savetxt`: the formatted values joined by the delimiter, and a line feed. -/
def saveRow (fmt : F → Text) (r : F × F) : Text := fmt r.1 ++ ',' :: fmt r.2 ++ ['\n']

/-- `store_completeness_table`, mtoolkit/jobs.py:278-279: the text of the file. -/
def saveTable (fmt : F → Text) (t : List (F × F)) : Text := t.flatMap (saveRow fmt)

/-- The lines of a text, without their line feed; the part after the last line feed is a line if it is not empty. -/
def lines : Text → List Text
  | [] => []
  | c :: cs => if c = '\n' then [] :: lines cs else
      match lines cs with
      | [] => [[c]]
      | l :: ls => (c :: l) :: ls

/-- The file is opened with universal line ends (mode `rbU`): a carriage return, alone or before a line feed, is read as a line feed. -/
def universal : Text → Text
  | [] => []
  | [c] => if c = '\r' then ['\n'] else [c]
  | c :: d :: t => if c = '\r' then (if d = '\n' then '\n' :: universal t else '\n' :: universal (d :: t)) else c :: universal (d :: t)

/-- The characters removed by `line.strip(" \r\n")`. -/
def isBlank (c : Char) : Bool := c = ' ' || c = '\r' || c = '\n'

/-- `line.strip(" \r\n")`: a tab is kept. -/
def stripBlank (t : Text) : Text := ((t.dropWhile isBlank).reverse.dropWhile isBlank).reverse

/-- `LineSplitter._delimited_splitter`: the comment is cut off, blanks at both ends are removed; an empty line has no values,
any other is split at the delimiter. -/
def splitLine (l : Text) : List Text :=
  let t := stripBlank (l.takeWhile (· ≠ '#'))
  if t = [] then [] else t.splitOn ','

/-- `StringConverter._loose_call` for floats: a value that is no number becomes NaN. -/
def loose (float : Text → Option F) (nan : F) (v : Text) : F := (float v).getD nan

/-- `np.genfromtxt(file, delimiter=',')`, all values in file order: `IOError` when there is no value at all, `ValueError` when a line has not
as many values as the first one. -/
def genFromTxt (float : Text → Option F) (nan : F) (file : Text) : Except PyErr (List F) :=
  match ((lines (universal file)).map splitLine).filter (fun r => r ≠ []) with
  | [] => .error .ioError
  | r :: rs => if rs.all (fun q => q.length = r.length) then .ok ((r :: rs).flatten.map (loose float nan)) else .error .valueError

/-- `.reshape((-1, 2))`. -/
def reshape2 : List F → Except PyErr (List (F × F))
  | [] => .ok []
  | [_] => .error .valueError
  | x :: y :: t => do
    let r ← reshape2 t
    .ok ((x, y) :: r)

/-- `retrieve_completeness_table`, mtoolkit/jobs.py:293-295. -/
def loadTable (float : Text → Option F) (nan : F) (file : Text) : Except PyErr (List (F × F)) := do
  let xs ← genFromTxt float nan file
  reshape2 xs

end

#guard saveTable (Format.fmt5 (K := ℚ)) [(1990, 4.25), (1960, 4.5)] = "1990.00000,   4.25000\n1960.00000,   4.50000\n".toList
#guard loadTable (Format.pyFloat (K := ℚ)) 0 "1990.00000,   4.25000\n1960.00000,   4.50000\n".toList = .ok [(1990, 4.25), (1960, 4.5)]
#guard loadTable (Format.pyFloat (K := ℚ)) 0 "1990.0\n\n# text\n4.25".toList = .ok [(1990, 4.25)]
#guard loadTable (Format.pyFloat (K := ℚ)) 0 "1990.0, 2\n4.25\n".toList = .error .valueError
#guard loadTable (Format.pyFloat (K := ℚ)) 0 "\n".toList = .error .ioError

end Verif.Table
