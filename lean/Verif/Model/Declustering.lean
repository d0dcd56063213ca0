import Verif.Model.CatalogueUtilities

/-!
# Model of `mtoolkit/scientific/declustering.py`

A catalogue matrix with `n` rows is a function `Fin n → Row F`; the columns are year, month, day, longitude, latitude, Mw, sigmaMw
(mtoolkit/jobs.py:36-37).  Boolean masks are functions `Fin n → Bool`, masked assignments are pointwise.
-/

namespace Verif.Declustering

open Verif Verif.CatUtil

/-- A row of the catalogue matrix. -/
abbrev Row (F : Type) := Fin 7 → F

/-! ### Windows -/

section
variable {F : Type} [PyMath F]

/-- `GardnerKnopoffWindow.calc`, mtoolkit/scientific/declustering.py:86-91, for one magnitude: (space, time). -/
def gkWindow (m : F) : F × F :=
  (PyMath.rpow 10.0 (0.1238 * m + 0.983),
   if m < 6.5 then PyMath.rpow 10.0 (0.5409 * m - 0.547) / ((365 : ℕ) : F)
   else PyMath.rpow 10.0 (0.032 * m + 2.7389) / ((365 : ℕ) : F))

/-- `np.abs`. -/
def pyAbs (x : F) : F := if x < ((0 : ℕ) : F) then -x else x

/-- `GruenthalWindow.calc`, mtoolkit/scientific/declustering.py:114-120. -/
def gruenthalWindow (m : F) : F × F :=
  (PyMath.exp (1.77 + PyMath.sqrt (0.037 + 1.02 * m)),
   if m ≥ 6.5 then PyMath.rpow ((10 : ℕ) : F) (2.8 + 0.024 * m) / ((365 : ℕ) : F)
   else pyAbs (PyMath.exp (-3.95 + PyMath.sqrt (0.62 + 17.32 * m)) / ((365 : ℕ) : F)))

/-- `UhrhammerWindow.calc`, mtoolkit/scientific/declustering.py:142-145. -/
def uhrhammerWindow (m : F) : F × F :=
  (PyMath.exp (-1.024 + 0.804 * m), PyMath.exp (-2.87 + 1.235 * m / ((365 : ℕ) : F)))

/-- `time_dist_windows[window_opt]`, mtoolkit/scientific/declustering.py:149-151. -/
def timeDistWindow (opt : String) : Except PyErr (F → F × F) :=
  if opt = "GardnerKnopoff" then .ok gkWindow
  else if opt = "Gruenthal" then .ok gruenthalWindow
  else if opt = "Uhrhammer" then .ok uhrhammerWindow
  else .error .keyError

end

/-! ### Sorting -/

/-- What `np.argsort(key)` guarantees: a permutation putting the keys in ascending order (ties in any order, heapsort is not stable). -/
def IsArgsort {n : Nat} {α : Type} [LE α] (key : Fin n → α) (p : Equiv.Perm (Fin n)) : Prop :=
  ∀ a b : Fin n, a ≤ b → key (p a) ≤ key (p b)

/-- `np.flipud` of an index vector. -/
def flipud {n : Nat} (p : Equiv.Perm (Fin n)) : Equiv.Perm (Fin n) := (Fin.revPerm).trans p

/-! ### Gardner and Knopoff -/

/-- Cluster numbers, flags and the cluster counter. -/
structure State (n : Nat) where
  vcl : Fin n → Int
  flag : Fin n → Int
  clust : Int

def State.init (n : Nat) : State n := ⟨fun _ => 0, fun _ => 0, 0⟩

section
variable {F : Type} [PyMath F] {n : Nat}

/-- `vsel` after the distance selection, mtoolkit/scientific/declustering.py:202-212: the events in both windows of event `i`.
The third argument `flagvector == 0` of `np.logical_and` is its *output* array, so it selects nothing. -/
def gkSel (cat : Fin n → Row F) (yearDec swSpace swTime : Fin n → F) (fs : F) (i j : Fin n) : Bool :=
  let dt := yearDec j - yearDec i
  (decide (dt ≥ -swTime i * fs) && decide (dt ≤ swTime i)) &&
    decide (haversine (cat j 3) (cat j 4) (cat i 3) (cat i 4) ≤ swSpace i)

/-- Body of the loop, mtoolkit/scientific/declustering.py:199-224. -/
def gkStep (cat : Fin n → Row F) (yearDec swSpace swTime : Fin n → F) (fs : F) (s : State n) (i : Fin n) : State n :=
  if s.vcl i = 0 then
    let vsel := gkSel cat yearDec swSpace swTime fs i
    let tempVsel : Fin n → Bool := fun j => if j = i then false else vsel j
    if (List.finRange n).any tempVsel then
      let vcl := fun j => if vsel j then s.clust + 1 else s.vcl j
      let flag1 := fun j => if vsel j then 1 else s.flag j
      let tempVsel2 : Fin n → Bool := fun j => if yearDec j - yearDec i ≥ 0.0 then false else tempVsel j
      let flag2 := fun j => if tempVsel2 j then -1 else flag1 j
      let flag3 := fun j => if j = i then 0 else flag2 j
      ⟨vcl, flag3, s.clust + 1⟩
    else s
  else s

/-- Loop `for i in range(0, neq - 1)`, mtoolkit/scientific/declustering.py:198-224. -/
def gkLoop (cat : Fin n → Row F) (yearDec swSpace swTime : Fin n → F) (fs : F) : State n :=
  ((List.finRange n).take (n - 1)).foldl (gkStep cat yearDec swSpace swTime fs) (State.init n)

/-- Rows of the re-sorted matrix with flag 0, mtoolkit/scientific/declustering.py:233, 393. -/
def unflagged (cat : Fin n → Row F) (flag : Fin n → Int) : List (Row F) :=
  ((List.finRange n).filter (fun j => flag j = 0)).map cat

/-- Result of a declustering: cluster numbers, main shocks, flags. -/
structure Result (F : Type) (n : Nat) where
  vcl : Fin n → Int
  vmain : List (Row F)
  flag : Fin n → Int

/-- `gardner_knopoff_decluster`, mtoolkit/scientific/declustering.py:154-235.  `asc` is the result of the first `argsort` (of the
magnitudes) and `id1` that of the second (of the original positions). -/
def gardnerKnopoff (cat : Fin n → Row F) (opt : String) (fs : F) (asc id1 : Equiv.Perm (Fin n)) :
    Except PyErr (Result F n) := do
  let m := fun j => cat j 5
  let yearDec ← decimalYears (fun j => cat j 0) (fun j => cat j 1) (fun j => cat j 2)
  let win ← timeDistWindow opt
  let swSpace := fun j => (win (m j)).1
  let swTime := fun j => (win (m j)).2
  let id0 := flipud asc
  let s := gkLoop (cat ∘ id0) (yearDec ∘ id0) (swSpace ∘ id0) (swTime ∘ id0) fs
  let cat2 := (cat ∘ id0) ∘ id1
  let flag := s.flag ∘ id1
  .ok ⟨s.vcl ∘ id1, unflagged cat2 flag, flag⟩

end

/-! ### Afteran -/

section
variable {F : Type} [PyNum F]

/-- `_find_aftershocks`, mtoolkit/scientific/declustering.py:250-262, on the events after the first; `initval` is the running reference
time. -/
def findAftershocksAux (tw : F) : F → List F → List Bool
  | _, [] => []
  | initval, t :: ts =>
    let ddt := t - initval
    let b := decide (ddt ≥ 0.0) && decide (ddt ≤ tw)
    b :: findAftershocksAux tw (if b then t else initval) ts

/-- `_find_aftershocks`; the first event is always selected, an empty vector makes `dtime[0]` fail. -/
def findAftershocks (tw : F) : List F → Except PyErr (List Bool)
  | [] => .error .indexError
  | t :: ts => .ok (true :: findAftershocksAux tw t ts)

/-- `_find_foreshocks`, mtoolkit/scientific/declustering.py:281-299, on the events after the first, with the aftershock marks.
After an event already marked as aftershock the index is incremented twice, so the next event is skipped as well. -/
def findForeshocksAux (tw : F) : F → List (F × Bool) → List Bool
  | _, [] => []
  | initval, (t, a) :: ts =>
    if a then
      match ts with
      | [] => [false]
      | _ :: ts' => false :: false :: findForeshocksAux tw initval ts'
    else
      let ddt := t - initval
      let b := decide (ddt ≤ 0.0) && decide (ddt ≥ -tw)
      b :: findForeshocksAux tw (if b then t else initval) ts

/-- `_find_foreshocks`; the first event is never selected. -/
def findForeshocks (tw : F) (dtime : List F) (after : List Bool) : Except PyErr (List Bool) :=
  match dtime with
  | [] => .error .indexError
  | t :: ts => .ok (false :: findForeshocksAux tw t (ts.zip after.tail))

/-- Assignment `mask[mask] = values` (or a masked copy): `sel` are the selected positions in order, `marks` the values; the result is the
set of positions whose value is true. -/
def marked {n : Nat} (sel : List (Fin n)) (marks : List Bool) (j : Fin n) : Bool :=
  (sel.zip marks).any (fun p => p.1 = j && p.2)

end

section
variable {F : Type} [PyMath F] {n : Nat}

/-- Positions selected for event `i`, mtoolkit/scientific/declustering.py:350-354: in the distance window and in no cluster yet. -/
def afSel (cat : Fin n → Row F) (swSpace : Fin n → F) (s : State n) (i : Fin n) : List (Fin n) :=
  (List.finRange n).filter fun j =>
    decide (haversine (cat j 3) (cat j 4) (cat i 3) (cat i 4) ≤ swSpace i) && decide (s.vcl j = 0)

/-- Body of the loop, mtoolkit/scientific/declustering.py:346-379. -/
def afStep (cat : Fin n → Row F) (yearDec swSpace : Fin n → F) (tw : F) (s : State n) (i : Fin n) :
    Except PyErr (State n) :=
  if s.vcl i = 0 then do
    let sel := afSel cat swSpace s i
    let dtime := sel.map (fun j => yearDec j - yearDec i)
    let vsel1 ← findAftershocks tw dtime
    let vsel2 ← findForeshocks tw dtime vsel1
    let temp := marked sel (List.zipWith (· || ·) vsel1 vsel2)
    if (List.finRange n).countP temp > 1 then
      let vcl := fun j => if temp j then s.clust + 1 else s.vcl j
      let vsel1 := vsel1.set 0 false
      let flag1 := fun j => if marked sel vsel1 j then 1 else s.flag j
      let flag2 := fun j => if marked sel vsel2 j then -1 else flag1 j
      .ok ⟨vcl, flag2, s.clust + 1⟩
    else .ok s
  else .ok s

/-- Loop `while i < neq`, mtoolkit/scientific/declustering.py:343-380. -/
def afLoop (cat : Fin n → Row F) (yearDec swSpace : Fin n → F) (tw : F) : Except PyErr (State n) :=
  (List.finRange n).foldlM (afStep cat yearDec swSpace tw) (State.init n)

/-- `afteran_decluster`, mtoolkit/scientific/declustering.py:302-395. -/
def afteran (cat : Fin n → Row F) (opt : String) (timeWindow : F) (asc id1 : Equiv.Perm (Fin n)) :
    Except PyErr (Result F n) := do
  let tw := timeWindow / ((365 : ℕ) : F)
  let m := fun j => cat j 5
  let yearDec ← decimalYears (fun j => cat j 0) (fun j => cat j 1) (fun j => cat j 2)
  let win ← timeDistWindow opt
  let swSpace := fun j => (win (m j)).1
  let id0 := flipud asc
  let s ← afLoop (cat ∘ id0) (yearDec ∘ id0) (swSpace ∘ id0) tw
  let cat2 := (cat ∘ id0) ∘ id1
  let flag := s.flag ∘ id1
  .ok ⟨s.vcl ∘ id1, unflagged cat2 flag, flag⟩

end

end Verif.Declustering
