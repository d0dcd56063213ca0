import Verif.Py.Num
import Verif.Py.Err

/-!
# Model of `mtoolkit/eqcatalog.py`: reading an earthquake catalogue

Texts are lists of characters.  A Python 2 dictionary iterates over its keys in an arbitrary order: the
functions below that loop over the keys of an entry take that order as the list `ks`.
-/

namespace Verif.EqCatalog

open Verif

abbrev Text := List Char

/-- The columns of a catalogue: `FIELDNAMES`, mtoolkit/eqcatalog.py:29-37. -/
inductive Fld where
  | eventID | agency | identifier
  | year | month | day
  | hour | minute | second
  | timeError | longitude | latitude
  | semiMajor90 | semiMinor90 | errorStrike
  | depth | depthError | mw
  | sigmaMw | ms | sigmaMs
  | mb | sigmamb | ml
  | sigmaML
deriving DecidableEq, Repr

/-- Column names, mtoolkit/eqcatalog.py:29-37. -/
def Fld.name : Fld → String
  | .eventID => "eventID" | .agency => "Agency" | .identifier => "Identifier"
  | .year => "year" | .month => "month" | .day => "day"
  | .hour => "hour" | .minute => "minute" | .second => "second"
  | .timeError => "timeError" | .longitude => "longitude" | .latitude => "latitude"
  | .semiMajor90 => "SemiMajor90" | .semiMinor90 => "SemiMinor90" | .errorStrike => "ErrorStrike"
  | .depth => "depth" | .depthError => "depthError" | .mw => "Mw"
  | .sigmaMw => "sigmaMw" | .ms => "Ms" | .sigmaMs => "sigmaMs"
  | .mb => "mb" | .sigmamb => "sigmamb" | .ml => "ML"
  | .sigmaML => "sigmaML"

/-- `FIELDNAMES` in order, mtoolkit/eqcatalog.py:29-37. -/
def fieldNames : List Fld :=
  [.eventID, .agency, .identifier, .year, .month, .day, .hour, .minute, .second,
   .timeError, .longitude, .latitude, .semiMajor90, .semiMinor90, .errorStrike,
   .depth, .depthError, .mw, .sigmaMw, .ms, .sigmaMs, .mb, .sigmamb, .ml, .sigmaML]

/-- Characters removed by `str.strip()` (Python 2, C locale). -/
def isWs (c : Char) : Bool :=
  c == ' ' || c == '\t' || c == '\n' || c == '\r' || c == '\x0b' || c == '\x0c'

/-- `str.strip()`. -/
def strip (t : Text) : Text := ((t.dropWhile isWs).reverse.dropWhile isWs).reverse

/-- First line of a file with its newline: `readline()`. -/
def readline : Text → Text × Text
  | [] => ([], [])
  | c :: cs => if c = '\n' then ([c], cs) else
      let (a, b) := readline cs
      (c :: a, b)

/-- `EqEntryReader.validate_csv_catalog`, mtoolkit/eqcatalog.py:126-136: consumes the first line and
returns the rest of the file. -/
def validateCsvCatalog (file : Text) : Except PyErr Text :=
  let (line, rest) := readline file
  if (line.splitOn ',').map strip = fieldNames.map (fun f => f.name.toList) then
    .ok rest
  else
    .error .malformedCatalog

/-- Python values stored in an entry: the csv text of the cell, `None` for a missing cell, and what the
conversion puts there. -/
inductive Val (F : Type) where
  | none
  | int (i : Int)
  | flt (x : F)
  | str (s : Text)
deriving Repr, DecidableEq

/-- Which conversion applies to a field: `to_int`, `to_float`, mtoolkit/eqcatalog.py:83-91. -/
inductive Conv where
  | toInt | toFloat | keep
deriving DecidableEq, Repr

/-- `self.to_int` / `self.to_float`, mtoolkit/eqcatalog.py:83-91. -/
def conv : Fld → Conv
  | .eventID | .identifier | .year | .month | .day | .hour | .minute => .toInt
  | .second | .timeError | .longitude | .latitude | .semiMajor90 | .semiMinor90 | .errorStrike
  | .depth | .depthError | .mw | .sigmaMw | .ms | .sigmaMs | .mb | .sigmamb | .ml | .sigmaML => .toFloat
  | .agency => .keep

/-- `self.compulsory_fields`, mtoolkit/eqcatalog.py:93-94: the integer fields, longitude, latitude, depth, Mw. -/
def compulsory : Fld → Bool
  | .eventID | .identifier | .year | .month | .day | .hour | .minute
  | .longitude | .latitude | .depth | .mw => true
  | _ => false

/-- An entry: Python dictionary from the 25 field names to values. -/
abbrev Entry (F : Type) := Fld → Val F

/-- A dictionary key of a row delivered by `csv.DictReader`: a field name, or `None` (the key under which
`DictReader` stores surplus cells). -/
abbrev Key := Option Fld

/-- What the reader takes from the outside: `int()` and `float()` on texts
(`none` stands for `ValueError`) and `datetime.now().year`. -/
structure Env (F : Type) where
  parseInt : Text → Option Int
  parseFloat : Text → Option F
  thisYear : Int

section
variable {F : Type} [PyNum F]

/-! ### Python 2 comparisons: `None` < numbers < strings. -/

def Val.rank : Val F → Nat
  | .none => 0
  | .int _ => 1
  | .flt _ => 1
  | .str _ => 2

/-- Python 2 `a <= b`. -/
def Val.le (a b : Val F) : Bool :=
  match a, b with
  | .int i, .int j => decide (i ≤ j)
  | .int i, .flt y => decide ((i : F) ≤ y)
  | .flt x, .int j => decide (x ≤ (j : F))
  | .flt x, .flt y => decide (x ≤ y)
  | .str s, .str t => decide (s ≤ t)
  | a, b => decide (a.rank ≤ b.rank)

/-- Python 2 `a < b`. -/
def Val.lt (a b : Val F) : Bool :=
  match a, b with
  | .int i, .int j => decide (i < j)
  | .int i, .flt y => decide ((i : F) < y)
  | .flt x, .int j => decide (x < (j : F))
  | .flt x, .flt y => decide (x < y)
  | .str s, .str t => decide (s < t)
  | a, b => decide (a.rank < b.rank)

/-- `v == ''`. -/
def Val.isBlank : Val F → Bool
  | .str [] => true
  | _ => false

def blank : Val F := .str []

/-- `d[k] = v`. -/
def Entry.set (e : Entry F) (f : Fld) (v : Val F) : Entry F := fun g => if g = f then v else e g

/-- One iteration of the loop of `convert_values`, mtoolkit/eqcatalog.py:174-194.
Lines 190-191 call `EqEntryValidationError` with an argument missing, which raises `TypeError`.
`int(None)`/`float(None)` raise `TypeError`, which is not caught.
Simplification: converting a value that is already a number keeps it (this does not happen: cells are texts or `None` and every key is visited once). -/
def convertField (env : Env F) (line : Nat) (k : Key) (e : Entry F) : Except PyErr (Entry F) :=
  match k with
  | Option.none => .ok e
  | some f =>
    match conv f with
    | .keep => .ok e
    | .toInt =>
      match e f with
      | .str s =>
        match env.parseInt s with
        | some i => .ok (e.set f (.int i))
        | Option.none => .error (.eqValidation f.name line)
      | .none => .error .typeError
      | _ => .ok e
    | .toFloat =>
      match e f with
      | .str s =>
        match env.parseFloat s with
        | some x => .ok (e.set f (.flt x))
        | Option.none => if compulsory f then .error .typeError else .ok (e.set f blank)
      | .none => .error .typeError
      | _ => .ok e

/-- `EqEntryReader.convert_values`, mtoolkit/eqcatalog.py:168-196. -/
def convertValues (env : Env F) (line : Nat) (ks : List Key) (e : Entry F) : Except PyErr (Entry F) :=
  ks.foldlM (fun e k => convertField env line k e) e

/-! ### The checks, mtoolkit/eqcatalog.py:198-312.  Each returns the truth value and the entry. -/

/-- `no_check`, mtoolkit/eqcatalog.py:198-203. -/
def noCheck (_ : Fld) (e : Entry F) : Bool × Entry F := (true, e)

/-- `check_positive_value`, mtoolkit/eqcatalog.py:205-217. -/
def checkPositiveValue (f : Fld) (e : Entry F) : Bool × Entry F :=
  if compulsory f then
    (Val.lt (.int 0) (e f), e)
  else if Val.lt (e f) (.int 0) then
    (true, e.set f blank)
  else
    (true, e)

/-- `check_year`, mtoolkit/eqcatalog.py:219-224. -/
def checkYear (env : Env F) (f : Fld) (e : Entry F) : Bool × Entry F :=
  (Val.le (.int (-10000)) (e f) && Val.le (e f) (.int env.thisYear), e)

/-- `check_month`, mtoolkit/eqcatalog.py:226-231. -/
def checkMonth (f : Fld) (e : Entry F) : Bool × Entry F :=
  (Val.le (.int 1) (e f) && Val.le (e f) (.int 12), e)

/-- `v == n` for an integer literal. -/
def Val.eqInt (v : Val F) (n : Int) : Bool :=
  match v with
  | .int i => decide (i = n)
  | .flt x => PyNum.decEq x (n : F)
  | _ => false

/-- `check_day`, mtoolkit/eqcatalog.py:233-239. -/
def checkDay (f : Fld) (e : Entry F) : Bool × Entry F :=
  ((Val.eqInt (e .month) 2 && Val.le (e f) (.int 29))
    || (!(Val.eqInt (e .month) 2) && (Val.le (.int 1) (e f) && Val.le (e f) (.int 31))), e)

/-- `check_hour`, mtoolkit/eqcatalog.py:241-246. -/
def checkHour (f : Fld) (e : Entry F) : Bool × Entry F :=
  (Val.le (.int 0) (e f) && Val.le (e f) (.int 23), e)

/-- `check_minute`, mtoolkit/eqcatalog.py:248-253. -/
def checkMinute (f : Fld) (e : Entry F) : Bool × Entry F :=
  (Val.le (.int 0) (e f) && Val.le (e f) (.int 59), e)

/-- `check_second`, mtoolkit/eqcatalog.py:255-265. -/
def checkSecond (f : Fld) (e : Entry F) : Bool × Entry F :=
  if Val.le (.int 0) (e f) && Val.le (e f) (.int 59) then (true, e) else (true, e.set f blank)

/-- `check_longitude`, mtoolkit/eqcatalog.py:267-272. -/
def checkLongitude (f : Fld) (e : Entry F) : Bool × Entry F :=
  (Val.le (.int (-180)) (e f) && Val.le (e f) (.int 180), e)

/-- `check_latitude`, mtoolkit/eqcatalog.py:274-279. -/
def checkLatitude (f : Fld) (e : Entry F) : Bool × Entry F :=
  (Val.le (.int (-90)) (e f) && Val.le (e f) (.int 90), e)

/-- `check_epicentre_error_location`, mtoolkit/eqcatalog.py:281-297. -/
def checkEpicentreErrorLocation (f : Fld) (e : Entry F) : Bool × Entry F :=
  if !(Val.le (.int 0) (e f) && Val.le (e f) (.int 360))
      || (e .semiMinor90).isBlank
      || (e .semiMajor90).isBlank
      || !(Val.le (e .semiMinor90) (e .semiMajor90)) then
    (true, ((e.set f blank).set .semiMajor90 blank).set .semiMinor90 blank)
  else
    (true, e)

/-- `check_sigma_mw`, mtoolkit/eqcatalog.py:299-312. -/
def checkSigmaMw (f : Fld) (e : Entry F) : Bool × Entry F :=
  if (e f).isBlank || Val.lt (e f) (.int 0) then (true, e.set f (.flt 0)) else (true, e)

/-- `self.check_map`, mtoolkit/eqcatalog.py:96-122. -/
def checkMap (env : Env F) : Fld → Fld → Entry F → Bool × Entry F
  | .eventID => checkPositiveValue
  | .agency => noCheck
  | .identifier => checkPositiveValue
  | .year => checkYear env
  | .month => checkMonth
  | .day => checkDay
  | .hour => checkHour
  | .minute => checkMinute
  | .second => checkSecond
  | .timeError => noCheck
  | .longitude => checkLongitude
  | .latitude => checkLatitude
  | .semiMajor90 => checkPositiveValue
  | .semiMinor90 => checkPositiveValue
  | .errorStrike => checkEpicentreErrorLocation
  | .depth => checkPositiveValue
  | .depthError => checkPositiveValue
  | .mw => noCheck
  | .sigmaMw => checkSigmaMw
  | .ms => noCheck
  | .sigmaMs => checkPositiveValue
  | .mb => noCheck
  | .sigmamb => checkPositiveValue
  | .ml => noCheck
  | .sigmaML => checkPositiveValue

/-- One iteration of the check loop of `read`, mtoolkit/eqcatalog.py:148-153.  `check_map[None]` raises `KeyError`. -/
def checkField (env : Env F) (line : Nat) (k : Key) (e : Entry F) : Except PyErr (Entry F) :=
  match k with
  | Option.none => .error .keyError
  | some f =>
    let (ok, e') := checkMap env f f e
    if !ok && compulsory f then .error (.eqValidation f.name line) else .ok e'

/-- The check loop of `read`, mtoolkit/eqcatalog.py:148-153. -/
def checkValues (env : Env F) (line : Nat) (ks : List Key) (e : Entry F) : Except PyErr (Entry F) :=
  ks.foldlM (fun e k => checkField env line k e) e

/-- One row: conversion then checks, mtoolkit/eqcatalog.py:147-154. -/
def readEntry (env : Env F) (line : Nat) (ks : List Key) (e : Entry F) : Except PyErr (Entry F) := do
  let e ← convertValues env line ks e
  checkValues env line ks e

/-- `csv.DictReader` row dictionary from the cells of a csv row (Python 2.7 `csv.py`): missing cells are
`None`, surplus cells are stored under the key `None` (second component). -/
def rowDict (cells : List Text) : Entry F × Bool :=
  (fun f => match cells[fieldNames.idxOf f]? with
    | some s => .str s
    | Option.none => .none,
   decide (fieldNames.length < cells.length))

/-- The keys of the row dictionary (in `FIELDNAMES` order; a dictionary order is a permutation of this list). -/
def rowKeys (extra : Bool) : List Key :=
  fieldNames.map some ++ (if extra then [Option.none] else [])

/-- A dictionary iteration order: for each row shape (with or without the `None` key) a permutation of the keys.
CPython 2.7 picks one that depends on the hash values of the names. -/
structure DictOrder where
  keys : Bool → List Key
  perm : ∀ b, (keys b).Perm (rowKeys b)

/-- One csv row of the catalogue, mtoolkit/eqcatalog.py:146-154. -/
def readRow (env : Env F) (ord : DictOrder) (line : Nat) (cells : List Text) : Except PyErr (Entry F) :=
  let (e, extra) := rowDict cells
  readEntry env line (ord.keys extra) e

/-- The loop of `read`, collected by `read_eq_catalog`, mtoolkit/eqcatalog.py:138-166: `enumerate(eq_reader,
start=2)`, where the `DictReader` skips the empty rows produced by blank lines. -/
def readRows (env : Env F) (ord : DictOrder) : Nat → List (List Text) → Except PyErr (List (Entry F))
  | _, [] => .ok []
  | n, r :: rs => do
    let e ← readRow env ord n r
    let es ← readRows env ord (n + 1) rs
    return e :: es

/-- `read_eq_catalog` on the rows delivered by the csv parser, mtoolkit/eqcatalog.py:138-166. -/
def readEqCatalog (env : Env F) (ord : DictOrder) (rows : List (List Text)) : Except PyErr (List (Entry F)) :=
  readRows env ord 2 (rows.filter (fun r => r ≠ []))

end

end Verif.EqCatalog
