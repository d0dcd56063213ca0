import Verif.Model.EqCatalog

/-!
# Model of the csv module as used by `mtoolkit/eqcatalog.py`

`csv.DictReader` (mtoolkit/eqcatalog.py:144) and `csv.DictWriter` (mtoolkit/eqcatalog.py:347-350) with the default `excel` dialect
of CPython 2.7 (`_csv.c`): delimiter `,`, quote character `"`, doubled quotes, minimal quoting, line terminator
CR LF, not strict, no escape character.
-/

namespace Verif.Csv

open Verif Verif.EqCatalog

/-- Parser states of `_csv.c` (without the escape character states). -/
inductive St where
  | startRecord | startField | inField | inQuoted | quoteInQuoted | eatCrnl
deriving DecidableEq, Repr

/-- Parser: state, fields of the current record, characters of the current field. -/
structure Parser where
  st : St
  fields : List Text
  cur : Text
deriving DecidableEq, Repr

def Parser.init : Parser := ⟨.startRecord, [], []⟩

/-- `parse_save_field`. -/
def Parser.save (p : Parser) (st : St) : Parser := ⟨st, p.fields ++ [p.cur], []⟩

/-- `parse_add_char`. -/
def Parser.add (p : Parser) (st : St) (c : Char) : Parser := ⟨st, p.fields, p.cur ++ [c]⟩

def isNl (c : Char) : Bool := c == '\n' || c == '\r'

/-- State `START_FIELD` of `parse_process_char`; `none` is the end of line call (`c = '\0'`). -/
def procStartField (p : Parser) : Option Char → Parser
  | none => p.save .startRecord
  | some c =>
    if isNl c then p.save .eatCrnl
    else if c = '"' then { p with st := .inQuoted }
    else if c = ',' then p.save .startField
    else p.add .inField c

/-- `parse_process_char`. -/
def proc (p : Parser) (c : Option Char) : Except PyErr Parser :=
  match p.st with
  | .startRecord =>
    match c with
    | none => .ok p
    | some ch => if isNl ch then .ok { p with st := .eatCrnl } else .ok (procStartField p c)
  | .startField => .ok (procStartField p c)
  | .inField =>
    match c with
    | none => .ok (p.save .startRecord)
    | some ch =>
      if isNl ch then .ok (p.save .eatCrnl)
      else if ch = ',' then .ok (p.save .startField)
      else .ok (p.add .inField ch)
  | .inQuoted =>
    match c with
    | none => .ok p
    | some ch => if ch = '"' then .ok { p with st := .quoteInQuoted } else .ok (p.add .inQuoted ch)
  | .quoteInQuoted =>
    match c with
    | none => .ok (p.save .startRecord)
    | some ch =>
      if ch = '"' then .ok (p.add .inQuoted ch)
      else if ch = ',' then .ok (p.save .startField)
      else if isNl ch then .ok (p.save .eatCrnl)
      else .ok (p.add .inField ch)
  | .eatCrnl =>
    match c with
    | none => .ok { p with st := .startRecord }
    | some ch => if isNl ch then .ok p else .error .csvError

/-- `field_limit` in `_csv.c`: no field may be longer. -/
def fieldLimit : Nat := 131072

/-- One character of a line; a NUL byte is refused (`Reader_iternext`), and so is a character that would make the field longer than the
limit (`parse_add_char`). -/
def procChar (p : Parser) (c : Char) : Except PyErr Parser :=
  if c = '\x00' then .error .csvError
  else
    match proc p (some c) with
    | .error e => .error e
    | .ok p' => if fieldLimit < p'.cur.length then .error .csvError else .ok p'

/-- End of input in `Reader_iternext`: an unfinished field is still delivered. -/
def atEof (p : Parser) : List (List Text) :=
  if p.cur ≠ [] ∨ p.st = .inQuoted then [(p.save .startRecord).fields] else []

/-- `Reader_iternext` repeated to the end of the file: the file is iterated line by line (a line ends after `'\n'`
or at the end of the file), each line is processed character by character followed by the end of line call, and a record
is delivered whenever the state is back at `START_RECORD`.  `mid` tells whether we are inside a line.
The result is the records delivered, and the exception that ended the iteration, if any. -/
def parse (p : Parser) (mid : Bool) : Text → List (List Text) × Option PyErr
  | [] =>
    if mid then
      match proc p none with
      | .error e => ([], some e)
      | .ok p' => if p'.st = .startRecord then ([p'.fields], none) else (atEof p', none)
    else (atEof p, none)
  | c :: cs =>
    match procChar p c with
    | .error e => ([], some e)
    | .ok p' =>
      if c = '\n' then
        match proc p' none with
        | .error e => ([], some e)
        | .ok p'' =>
          if p''.st = .startRecord then
            let r := parse .init false cs
            (p''.fields :: r.1, r.2)
          else parse p'' false cs
      else parse p' true cs

/-- All records of a csv text. -/
def csvRows (t : Text) : List (List Text) × Option PyErr := parse .init false t

/-! ### Writer -/

/-- Characters that make `QUOTE_MINIMAL` quote a field: delimiter, quote character, characters of the line terminator. -/
def special (c : Char) : Bool := c == ',' || c == '"' || c == '\r' || c == '\n'

/-- Doubled quotes. -/
def escape : Text → Text
  | [] => []
  | c :: cs => if c = '"' then '"' :: '"' :: escape cs else c :: escape cs

/-- `join_append` in `_csv.c`.  `only` tells that the record has a single field (then an empty field is quoted).  C strings end at
NUL. -/
def quoteField (only : Bool) (t : Text) : Text :=
  let t := t.takeWhile (· ≠ '\x00')
  if t.any special || (only && t.isEmpty) then '"' :: (escape t ++ ['"']) else t

/-- `csv_writerow`: quoted fields joined by the delimiter, then the line terminator. -/
def writeRow (cells : List Text) : Text :=
  [','].intercalate (cells.map (quoteField (cells.length == 1))) ++ ['\r', '\n']

def writeRows (rows : List (List Text)) : Text := rows.flatMap writeRow

section
variable {F : Type} [PyNum F]

/-- Text of a cell: the csv writer of Python 2.7 uses `repr` for floats and `str` for the rest
(`None` becomes the empty string). -/
structure ShowNum (F : Type) where
  showInt : Int → Text
  showFloat : F → Text

def cellText (s : ShowNum F) : Val F → Text
  | .none => []
  | .int i => s.showInt i
  | .flt x => s.showFloat x
  | .str t => t

/-- `EqEntryWriter.write_rows`, mtoolkit/eqcatalog.py:342-350: header, then one row per entry with the columns in `FIELDNAMES`
order. -/
def writeCatalog (s : ShowNum F) (entries : List (Entry F)) : Text :=
  writeRow (fieldNames.map (fun f => f.name.toList)) ++
    writeRows (entries.map (fun e => fieldNames.map (fun f => cellText s (e f))))

/-- Opening and loading a whole catalogue file, mtoolkit/eqcatalog.py:72-81, 138-166 (`read_eq_catalog` in
mtoolkit/jobs.py:68-70): the rows are checked one by one as the parser delivers them, so an invalid row before a csv error wins. -/
def readCatalogFile (env : Env F) (ord : DictOrder) (file : Text) : Except PyErr (List (Entry F)) := do
  let rest ← validateCsvCatalog file
  let (rows, err) := csvRows rest
  let es ← readEqCatalog env ord rows
  match err with
  | some e => .error e
  | none => .ok es

end

end Verif.Csv
