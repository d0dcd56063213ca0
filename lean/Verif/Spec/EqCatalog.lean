import Verif.Model.EqCatalog

/-!
# What a user expects from the catalogue reader

Statements in terms of the file text, the cells of a row and the delivered entry only.
-/

namespace Verif.EqCatalog.Spec

open Verif Verif.EqCatalog

/-- `line` is the first line of `file` (with its newline if there is one) and `rest` what follows. -/
def FirstLine (file line rest : Text) : Prop :=
  file = line ++ rest ∧
    ((∃ l, line = l ++ ['\n'] ∧ '\n' ∉ l) ∨ ('\n' ∉ line ∧ rest = []))

def Blanks (t : Text) : Prop := ∀ c ∈ t, c ∈ [' ', '\t', '\n', '\r', '\x0b', '\x0c']

/-- The documented column names. -/
def documentedHeader : List String :=
  ["eventID", "Agency", "Identifier", "year", "month", "day", "hour", "minute", "second",
   "timeError", "longitude", "latitude", "SemiMajor90", "SemiMinor90", "ErrorStrike",
   "depth", "depthError", "Mw", "sigmaMw", "Ms", "sigmaMs", "mb", "sigmamb", "ML", "sigmaML"]

/-- The line consists of the documented names, separated by commas, each possibly surrounded by blanks. -/
def PaddedHeader (line : Text) : Prop :=
  ∃ pads : List (Text × Text), pads.length = 25 ∧ (∀ p ∈ pads, Blanks p.1 ∧ Blanks p.2) ∧
    line = [','].intercalate
      (List.zipWith (fun (p : Text × Text) (n : String) => p.1 ++ n.toList ++ p.2) pads documentedHeader)

variable {F : Type} [PyNum F]

def IsInt (v : Val F) (P : Int → Prop) : Prop := ∃ i, v = .int i ∧ P i
def IsFloat (v : Val F) (P : F → Prop) : Prop := ∃ x, v = .flt x ∧ P x

/-- Documented ranges of the compulsory fields of a delivered entry (C02). -/
structure Ranges (thisYear : Int) (e : Entry F) : Prop where
  eventID : IsInt (e .eventID) (fun i => 0 < i)
  identifier : IsInt (e .identifier) (fun i => 0 < i)
  year : IsInt (e .year) (fun y => -10000 ≤ y ∧ y ≤ thisYear)
  month : IsInt (e .month) (fun m => 1 ≤ m ∧ m ≤ 12)
  dayInt : IsInt (e .day) (fun _ => True)
  hour : IsInt (e .hour) (fun h => 0 ≤ h ∧ h ≤ 23)
  minute : IsInt (e .minute) (fun m => 0 ≤ m ∧ m ≤ 59)
  longitude : IsFloat (e .longitude) (fun x => ((-180 : Int) : F) ≤ x ∧ x ≤ ((180 : Int) : F))
  latitude : IsFloat (e .latitude) (fun x => ((-90 : Int) : F) ≤ x ∧ x ≤ ((90 : Int) : F))
  depth : IsFloat (e .depth) (fun x => ((0 : Int) : F) < x)
  mw : IsFloat (e .mw) (fun _ => True)

/-- Number of days a month can have (29 for February). -/
def maxDay : Int → Int
  | 2 => 29
  | 4 => 30 | 6 => 30 | 9 => 30 | 11 => 30
  | _ => 31

/-- Some year has that day in that month. -/
def PossibleDay (e : Entry F) : Prop :=
  ∃ m d, e .month = .int m ∧ e .day = .int d ∧ 1 ≤ d ∧ d ≤ maxDay m

/-- Blank or a float satisfying `P`. -/
def BlankOr (v : Val F) (P : F → Prop) : Prop := v = .str [] ∨ IsFloat v P

/-- The optional numeric fields of a delivered entry are clean (C05). -/
structure OptionalClean (e : Entry F) : Prop where
  second : BlankOr (e .second) (fun x => ((0 : Int) : F) ≤ x ∧ x ≤ ((59 : Int) : F))
  timeError : BlankOr (e .timeError) (fun _ => True)
  semiMajor90 : BlankOr (e .semiMajor90) (fun x => ¬ x < ((0 : Int) : F))
  semiMinor90 : BlankOr (e .semiMinor90) (fun x => ¬ x < ((0 : Int) : F))
  errorStrike : BlankOr (e .errorStrike) (fun x => ((0 : Int) : F) ≤ x ∧ x ≤ ((360 : Int) : F))
  depthError : BlankOr (e .depthError) (fun x => ¬ x < ((0 : Int) : F))
  ms : BlankOr (e .ms) (fun _ => True)
  sigmaMs : BlankOr (e .sigmaMs) (fun x => ¬ x < ((0 : Int) : F))
  mb : BlankOr (e .mb) (fun _ => True)
  sigmamb : BlankOr (e .sigmamb) (fun x => ¬ x < ((0 : Int) : F))
  ml : BlankOr (e .ml) (fun _ => True)
  sigmaML : BlankOr (e .sigmaML) (fun x => ¬ x < ((0 : Int) : F))

/-- Error ellipse all or nothing (C07). -/
def EllipseOK (e : Entry F) : Prop :=
  (e .errorStrike = .str [] ∧ e .semiMajor90 = .str [] ∧ e .semiMinor90 = .str []) ∨
  (∃ s a b, e .errorStrike = .flt s ∧ e .semiMajor90 = .flt a ∧ e .semiMinor90 = .flt b ∧ b ≤ a)

/-- The cell at position `k` is the text of an integer with property `P`. -/
def IntCell (env : Env F) (cells : List Text) (k : Nat) (P : Int → Prop) : Prop :=
  ∃ s i, cells[k]? = some s ∧ env.parseInt s = some i ∧ P i

/-- The cell at position `k` is the text of a float with property `P`. -/
def FloatCell (env : Env F) (cells : List Text) (k : Nat) (P : F → Prop) : Prop :=
  ∃ s x, cells[k]? = some s ∧ env.parseFloat s = some x ∧ P x

/-- The day rule the reader applies (see C03 for what is wrong with it). -/
def DayRule (m d : Int) : Prop := (m = 2 ∧ d ≤ 29) ∨ (m ≠ 2 ∧ 1 ≤ d ∧ d ≤ 31)

/-- A valid data row: 25 cells, and the eleven compulsory ones readable and in range.
Nothing is said about the optional cells. -/
structure ValidRow (env : Env F) (cells : List Text) : Prop where
  cells25 : cells.length = 25
  eventID : IntCell env cells 0 (fun i => 0 < i)
  identifier : IntCell env cells 2 (fun i => 0 < i)
  year : IntCell env cells 3 (fun y => -10000 ≤ y ∧ y ≤ env.thisYear)
  month : IntCell env cells 4 (fun m => 1 ≤ m ∧ m ≤ 12)
  day : IntCell env cells 5 (fun d => IntCell env cells 4 (fun m => DayRule m d))
  hour : IntCell env cells 6 (fun h => 0 ≤ h ∧ h ≤ 23)
  minute : IntCell env cells 7 (fun m => 0 ≤ m ∧ m ≤ 59)
  longitude : FloatCell env cells 10 (fun x => ((-180 : Int) : F) ≤ x ∧ x ≤ ((180 : Int) : F))
  latitude : FloatCell env cells 11 (fun x => ((-90 : Int) : F) ≤ x ∧ x ≤ ((90 : Int) : F))
  depth : FloatCell env cells 15 (fun x => ((0 : Int) : F) < x)
  mw : FloatCell env cells 17 (fun _ => True)

/-- The optional numeric columns by position. -/
def optionalColumns : List Nat := [1, 8, 9, 12, 13, 14, 16, 18, 19, 20, 21, 22, 23, 24]

end Verif.EqCatalog.Spec
