import Verif.Lemmas.EqCatalog

/-! A data row is accepted exactly when it is valid; the delivered entry. -/

namespace Verif.EqCatalog

open Verif Spec

variable {F : Type} [PyNum F]

theorem rowKeys_nodup (b : Bool) : (rowKeys b).Nodup := by cases b <;> decide

theorem mem_rowKeys (b : Bool) (f : Fld) : some f ∈ rowKeys b := by
  cases b <;> cases f <;> decide

theorem DictOrder.nodup (ord : DictOrder) (b : Bool) : (ord.keys b).Nodup :=
  (ord.perm b).nodup_iff.mpr (rowKeys_nodup b)

theorem DictOrder.mem (ord : DictOrder) (b : Bool) (f : Fld) : some f ∈ ord.keys b :=
  (ord.perm b).mem_iff.mpr (mem_rowKeys b f)

theorem DictOrder.none_mem (ord : DictOrder) (b : Bool) : Option.none ∈ ord.keys b ↔ b = true := by
  rw [(ord.perm b).mem_iff]; cases b <;> decide

/-- Acceptance and result of a row in terms of the converted entry. -/
theorem readRow_ok (env : Env F) (ord : DictOrder) (line : Nat) (cells : List Text) (e : Entry F) :
    readRow env ord line cells = .ok e ↔
      cells.length ≤ 25 ∧ ∃ e1 : Entry F,
        (∀ f, conv1 env line f ((rowDict cells).1 f) = .ok (e1 f)) ∧
        (∀ f, compulsory f = true → chkOK env f e1 = true) ∧
        e = (ord.keys false).foldl (chkStep env) e1 := by
  have hlen : fieldNames.length = 25 := rfl
  unfold readRow readEntry
  simp only
  constructor
  · intro h
    cases hc : convertValues env line (ord.keys (rowDict (F := F) cells).2) (rowDict cells).1 with
    | error err => rw [hc] at h; simp [bind, Except.bind] at h
    | ok e1 =>
      rw [hc] at h
      simp only [bind, Except.bind] at h
      rw [checkValues_ok] at h
      rw [convertValues_ok _ _ _ _ _ (ord.nodup _)] at hc
      obtain ⟨h1, h2, h3⟩ := h
      have hex : (rowDict (F := F) cells).2 = false := by
        rw [ord.none_mem] at h1; simpa using h1
      refine ⟨?_, e1, fun f => (hc f).1 (ord.mem _ f), fun f => h2 f (ord.mem _ f), ?_⟩
      · simp only [rowDict, decide_eq_false_iff_not, not_lt] at hex
        omega
      · rw [hex] at h3; exact h3
  · rintro ⟨hl, e1, h1, h2, rfl⟩
    have hex : (rowDict (F := F) cells).2 = false := by
      simp only [rowDict, decide_eq_false_iff_not, not_lt]; omega
    rw [hex]
    have hc : convertValues env line (ord.keys false) (rowDict cells).1 = .ok e1 := by
      rw [convertValues_ok _ _ _ _ _ (ord.nodup _)]
      intro f
      exact ⟨fun _ => h1 f, fun h => absurd (ord.mem _ f) h⟩
    rw [hc]
    simp only [bind, Except.bind]
    rw [checkValues_ok]
    refine ⟨by rw [ord.none_mem]; simp, fun f _ => h2 f, rfl⟩

/-- Acceptance does not mention the order. -/
def Converted (env : Env F) (line : Nat) (cells : List Text) (e1 : Entry F) : Prop :=
  cells.length ≤ 25 ∧ (∀ f, conv1 env line f ((rowDict cells).1 f) = .ok (e1 f)) ∧
    (∀ f, compulsory f = true → chkOK env f e1 = true)

theorem readRow_ok' (env : Env F) (ord : DictOrder) (line : Nat) (cells : List Text) (e : Entry F) :
    readRow env ord line cells = .ok e ↔
      ∃ e1, Converted env line cells e1 ∧ e = (ord.keys false).foldl (chkStep env) e1 := by
  rw [readRow_ok]
  constructor
  · rintro ⟨h, e1, h1, h2, h3⟩; exact ⟨e1, ⟨h, h1, h2⟩, h3⟩
  · rintro ⟨e1, ⟨h, h1, h2⟩, h3⟩; exact ⟨h, e1, h1, h2, h3⟩

theorem conv1_int (env : Env F) (line : Nat) (f : Fld) (hf : conv f = .toInt) (cells : List Text) (k : Nat)
    (hk : fieldNames.idxOf f = k) (v : Val F) :
    conv1 env line f ((rowDict cells).1 f) = .ok v ↔
      ∃ s i, cells[k]? = some s ∧ env.parseInt s = some i ∧ v = .int i := by
  simp only [conv1, hf, rowDict, hk]
  cases hc : cells[k]? with
  | none => simp
  | some s =>
    cases hp : env.parseInt s with
    | none => simp [hp]
    | some i => simp [hp, eq_comm]

theorem conv1_float_comp (env : Env F) (line : Nat) (f : Fld) (hf : conv f = .toFloat) (hcf : compulsory f = true)
    (cells : List Text) (k : Nat) (hk : fieldNames.idxOf f = k) (v : Val F) :
    conv1 env line f ((rowDict cells).1 f) = .ok v ↔
      ∃ s x, cells[k]? = some s ∧ env.parseFloat s = some x ∧ v = .flt x := by
  simp only [conv1, hf, rowDict, hk, hcf]
  cases hc : cells[k]? with
  | none => simp
  | some s =>
    cases hp : env.parseFloat s with
    | none => simp [hp]
    | some i => simp [hp, eq_comm]

theorem conv1_float_opt (env : Env F) (line : Nat) (f : Fld) (hf : conv f = .toFloat) (hcf : compulsory f = false)
    (cells : List Text) (k : Nat) (hk : fieldNames.idxOf f = k) (v : Val F) :
    conv1 env line f ((rowDict cells).1 f) = .ok v ↔
      ∃ s, cells[k]? = some s ∧
        v = (match env.parseFloat s with | some x => .flt x | Option.none => blank) := by
  simp only [conv1, hf, rowDict, hk, hcf]
  cases hc : cells[k]? with
  | none => simp
  | some s =>
    cases hp : env.parseFloat s with
    | none => simp [hp, eq_comm]
    | some i => simp [hp, eq_comm]

/-- A row converts and passes the compulsory checks exactly when it is valid. -/
theorem converted_iff_valid (env : Env F) (line : Nat) (cells : List Text) :
    (∃ e1, Converted env line cells e1) ↔ ValidRow env cells := by
  constructor
  · rintro ⟨e1, hlen, hc, hk⟩
    have hI : ∀ f k, conv f = .toInt → fieldNames.idxOf f = k →
        ∃ s i, cells[k]? = some s ∧ env.parseInt s = some i ∧ e1 f = .int i :=
      fun f k hf hi => (conv1_int env line f hf cells k hi (e1 f)).mp (hc f)
    have hX : ∀ f k, conv f = .toFloat → compulsory f = true → fieldNames.idxOf f = k →
        ∃ s x, cells[k]? = some s ∧ env.parseFloat s = some x ∧ e1 f = .flt x :=
      fun f k hf hcf hi => (conv1_float_comp env line f hf hcf cells k hi (e1 f)).mp (hc f)
    obtain ⟨s24, h24, -⟩ := (conv1_float_opt env line .sigmaML rfl rfl cells 24 rfl (e1 .sigmaML)).mp (hc .sigmaML)
    have hl : cells.length = 25 := by
      have := (List.getElem?_eq_some_iff.mp h24).1
      omega
    obtain ⟨s0, i0, c0, p0, v0⟩ := hI .eventID 0 rfl rfl
    obtain ⟨s2, i2, c2, p2, v2⟩ := hI .identifier 2 rfl rfl
    obtain ⟨s3, i3, c3, p3, v3⟩ := hI .year 3 rfl rfl
    obtain ⟨s4, i4, c4, p4, v4⟩ := hI .month 4 rfl rfl
    obtain ⟨s5, i5, c5, p5, v5⟩ := hI .day 5 rfl rfl
    obtain ⟨s6, i6, c6, p6, v6⟩ := hI .hour 6 rfl rfl
    obtain ⟨s7, i7, c7, p7, v7⟩ := hI .minute 7 rfl rfl
    obtain ⟨s10, i10, c10, p10, v10⟩ := hX .longitude 10 rfl rfl rfl
    obtain ⟨s11, i11, c11, p11, v11⟩ := hX .latitude 11 rfl rfl rfl
    obtain ⟨s15, i15, c15, p15, v15⟩ := hX .depth 15 rfl rfl rfl
    obtain ⟨s17, i17, c17, p17, v17⟩ := hX .mw 17 rfl rfl rfl
    have k0 := hk .eventID rfl
    have k2 := hk .identifier rfl
    have k3 := hk .year rfl
    have k4 := hk .month rfl
    have k5 := hk .day rfl
    have k6 := hk .hour rfl
    have k7 := hk .minute rfl
    have k10 := hk .longitude rfl
    have k11 := hk .latitude rfl
    have k15 := hk .depth rfl
    simp only [chkOK, checkMap, checkPositiveValue, compulsory, if_true, checkYear, checkMonth, checkDay,
      checkHour, checkMinute, checkLongitude, checkLatitude, v0, v2, v3, v4, v5, v6, v7, v10, v11, v15,
      Val.le, Val.lt, Val.eqInt, Bool.and_eq_true, Bool.or_eq_true, decide_eq_true_eq, Bool.not_eq_true',
      decide_eq_false_iff_not] at k0 k2 k3 k4 k5 k6 k7 k10 k11 k15
    exact {
      cells25 := hl
      eventID := ⟨s0, i0, c0, p0, k0⟩
      identifier := ⟨s2, i2, c2, p2, k2⟩
      year := ⟨s3, i3, c3, p3, k3⟩
      month := ⟨s4, i4, c4, p4, k4⟩
      day := ⟨s5, i5, c5, p5, s4, i4, c4, p4, k5⟩
      hour := ⟨s6, i6, c6, p6, k6⟩
      minute := ⟨s7, i7, c7, p7, k7⟩
      longitude := ⟨s10, i10, c10, p10, k10⟩
      latitude := ⟨s11, i11, c11, p11, k11⟩
      depth := ⟨s15, i15, c15, p15, k15⟩
      mw := ⟨s17, i17, c17, p17, trivial⟩ }
  · intro h
    obtain ⟨s0, i0, c0, p0, k0⟩ := h.eventID
    obtain ⟨s2, i2, c2, p2, k2⟩ := h.identifier
    obtain ⟨s3, i3, c3, p3, k3⟩ := h.year
    obtain ⟨s4, i4, c4, p4, k4⟩ := h.month
    obtain ⟨s5, i5, c5, p5, s4', i4', c4', p4', k5⟩ := h.day
    obtain ⟨s6, i6, c6, p6, k6⟩ := h.hour
    obtain ⟨s7, i7, c7, p7, k7⟩ := h.minute
    obtain ⟨s10, i10, c10, p10, k10⟩ := h.longitude
    obtain ⟨s11, i11, c11, p11, k11⟩ := h.latitude
    obtain ⟨s15, i15, c15, p15, k15⟩ := h.depth
    obtain ⟨s17, i17, c17, p17, -⟩ := h.mw
    have hs : s4' = s4 := by rw [c4] at c4'; exact (Option.some.inj c4').symm
    subst hs
    have hi : i4' = i4 := by rw [p4] at p4'; exact (Option.some.inj p4').symm
    subst hi
    have hall : ∀ f : Fld, ∃ v : Val F, conv1 env line f ((rowDict cells).1 f) = .ok v := by
      intro f
      have hget : ∃ s, cells[fieldNames.idxOf f]? = some s := by
        have hlt : fieldNames.idxOf f < cells.length := by
          rw [h.cells25]; cases f <;> decide
        exact ⟨_, List.getElem?_eq_getElem hlt⟩
      obtain ⟨s, hs⟩ := hget
      by_cases hcf : compulsory f = true
      · cases f <;> simp only [compulsory, Bool.false_eq_true] at hcf
        · exact ⟨_, (conv1_int env line .eventID rfl cells 0 rfl _).mpr ⟨s0, i0, c0, p0, rfl⟩⟩
        · exact ⟨_, (conv1_int env line .identifier rfl cells 2 rfl _).mpr ⟨s2, i2, c2, p2, rfl⟩⟩
        · exact ⟨_, (conv1_int env line .year rfl cells 3 rfl _).mpr ⟨s3, i3, c3, p3, rfl⟩⟩
        · exact ⟨_, (conv1_int env line .month rfl cells 4 rfl _).mpr ⟨_, _, c4, p4, rfl⟩⟩
        · exact ⟨_, (conv1_int env line .day rfl cells 5 rfl _).mpr ⟨s5, i5, c5, p5, rfl⟩⟩
        · exact ⟨_, (conv1_int env line .hour rfl cells 6 rfl _).mpr ⟨s6, i6, c6, p6, rfl⟩⟩
        · exact ⟨_, (conv1_int env line .minute rfl cells 7 rfl _).mpr ⟨s7, i7, c7, p7, rfl⟩⟩
        · exact ⟨_, (conv1_float_comp env line .longitude rfl rfl cells 10 rfl _).mpr ⟨_, _, c10, p10, rfl⟩⟩
        · exact ⟨_, (conv1_float_comp env line .latitude rfl rfl cells 11 rfl _).mpr ⟨_, _, c11, p11, rfl⟩⟩
        · exact ⟨_, (conv1_float_comp env line .depth rfl rfl cells 15 rfl _).mpr ⟨_, _, c15, p15, rfl⟩⟩
        · exact ⟨_, (conv1_float_comp env line .mw rfl rfl cells 17 rfl _).mpr ⟨_, _, c17, p17, rfl⟩⟩
      · have hcf' : compulsory f = false := by simpa using hcf
        cases hcv : conv f with
        | toInt => cases f <;> simp [conv] at hcv <;> simp [compulsory] at hcf
        | toFloat => exact ⟨_, (conv1_float_opt env line f hcv hcf' cells _ rfl _).mpr ⟨s, hs, rfl⟩⟩
        | keep => exact ⟨(rowDict cells).1 f, by simp only [conv1, hcv]⟩
    obtain ⟨e1, he1⟩ := Classical.skolem.mp hall
    have hI : ∀ f k s i, conv f = .toInt → fieldNames.idxOf f = k → cells[k]? = some s → env.parseInt s = some i →
        e1 f = .int i := by
      intro f k s i hf hk hs hp
      obtain ⟨s', i', h1, h2, h3⟩ := (conv1_int env line f hf cells k hk (e1 f)).mp (he1 f)
      rw [hs] at h1; cases h1
      rw [hp] at h2; cases h2
      exact h3
    have hX : ∀ f k s x, conv f = .toFloat → compulsory f = true → fieldNames.idxOf f = k → cells[k]? = some s →
        env.parseFloat s = some x → e1 f = .flt x := by
      intro f k s i hf hcf hk hs hp
      obtain ⟨s', i', h1, h2, h3⟩ := (conv1_float_comp env line f hf hcf cells k hk (e1 f)).mp (he1 f)
      rw [hs] at h1; cases h1
      rw [hp] at h2; cases h2
      exact h3
    refine ⟨e1, le_of_eq h.cells25, he1, ?_⟩
    have v0 := hI .eventID 0 _ _ rfl rfl c0 p0
    have v2 := hI .identifier 2 _ _ rfl rfl c2 p2
    have v3 := hI .year 3 _ _ rfl rfl c3 p3
    have v4 := hI .month 4 _ _ rfl rfl c4 p4
    have v5 := hI .day 5 _ _ rfl rfl c5 p5
    have v6 := hI .hour 6 _ _ rfl rfl c6 p6
    have v7 := hI .minute 7 _ _ rfl rfl c7 p7
    have v10 := hX .longitude 10 _ _ rfl rfl rfl c10 p10
    have v11 := hX .latitude 11 _ _ rfl rfl rfl c11 p11
    have v15 := hX .depth 15 _ _ rfl rfl rfl c15 p15
    unfold DayRule at k5
    intro f hcf
    cases f <;> simp only [compulsory, Bool.false_eq_true] at hcf <;>
    simp only [chkOK, checkMap, checkPositiveValue, compulsory, if_true, checkYear, checkMonth, checkDay, noCheck,
      checkHour, checkMinute, checkLongitude, checkLatitude, v0, v2, v3, v4, v5, v6, v7, v10, v11, v15,
      Val.le, Val.lt, Val.eqInt, Bool.and_eq_true, Bool.or_eq_true, decide_eq_true_eq, Bool.not_eq_true',
      decide_eq_false_iff_not] <;> assumption

theorem readRow_accept_iff (env : Env F) (ord : DictOrder) (line : Nat) (cells : List Text) :
    (∃ e, readRow env ord line cells = .ok e) ↔ ValidRow env cells := by
  rw [← converted_iff_valid env line cells]
  constructor
  · rintro ⟨e, h⟩
    obtain ⟨e1, h1, -⟩ := (readRow_ok' ..).mp h
    exact ⟨e1, h1⟩
  · rintro ⟨e1, h⟩
    exact ⟨_, (readRow_ok' ..).mpr ⟨e1, h, rfl⟩⟩

end Verif.EqCatalog
