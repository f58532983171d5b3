import Verif.Lemmas.SolnTable
/-
C34 solution numbers are unique, C35 they invert to unique rows of the chemistry table, C42 mixing
fractions are validated.
-/
namespace Verif.SolnNum

/-- Rounding to the nearest multiple of 2⁻²⁰: a rounding satisfying `Single` that is not the identity. -/
def roundQ (x : Rat) : Rat := ((x * 1048576 + 1 / 2).floor : Rat) / 1048576

theorem roundQ_single : Single roundQ where
  mono x y h := by
    unfold roundQ
    have : (x * 1048576 + 1 / 2).floor ≤ (y * 1048576 + 1 / 2).floor := by
      rw [Rat.le_floor_iff]
      have := Rat.floor_le (x * 1048576 + 1 / 2)
      linarith
    have : ((x * 1048576 + 1 / 2).floor : Rat) ≤ ((y * 1048576 + 1 / 2).floor : Rat) := by exact_mod_cast this
    linarith
  exact m e he _ _ := by
    obtain ⟨k, hk⟩ : ∃ k, 20 = e + k := ⟨20 - e, by omega⟩
    have h2 : (1048576 : Rat) = 2 ^ e * 2 ^ k := by
      rw [← pow_add, ← hk]; norm_num
    have hpe : (2 : Rat) ^ e ≠ 0 := by positivity
    have hpk : (2 : Rat) ^ k ≠ 0 := by positivity
    have hm : (m : Rat) / 2 ^ e * 1048576 = ((m * 2 ^ k : Int) : Rat) := by
      rw [h2]; push_cast; field_simp
    unfold roundQ
    rw [hm]
    have hf : (((m * 2 ^ k : Int) : Rat) + 1 / 2).floor = m * 2 ^ k := by
      have a : m * 2 ^ k ≤ (((m * 2 ^ k : Int) : Rat) + 1 / 2).floor := by
        rw [Rat.le_floor_iff]; linarith
      have b : (((m * 2 ^ k : Int) : Rat) + 1 / 2).floor < m * 2 ^ k + 1 := by
        rw [Rat.floor_lt_iff]; push_cast; linarith
      omega
    rw [hf, h2]
    push_cast
    field_simp

example : roundQ (1 / 3) ≠ 1 / 3 := by decide +kernel

/-- The largest sizes the model declares (fmodules.f90.inc:45-61): 500 MRUs, 50 bins, 1 + 20 + 20 data
sources; 100 segments. -/
def declaredMax : Dims := ⟨41, 500, 50, 100, fun _ => 50⟩

theorem declaredMax_ok : declaredMax.Ok := ⟨by decide, by decide, by decide, by decide⟩

/-! ### C34 -/

/-- **C34.** Two reservoirs with the same solution number are the same reservoir, at the same time level
if the reservoir has one. -/
theorem C34_unique {fl : Rat → Rat} (h : Single fl) (d : Dims) (ok : d.Ok) (t t' : Time) (r r' : Reservoir)
    (w : r.Within d) (w' : r'.Within d) (e : number fl t r = number fl t' r') :
    r = r' ∧ (r.Timed → t = t') :=
  number_inj h d ok t t' r r' w w' e

/-- **C34.** The numbers are positive and fit 32 bit integers (also all intermediate results: the summands
are not negative). -/
theorem C34_range {fl : Rat → Rat} (h : Single fl) (d : Dims) (ok : d.Ok) (t : Time) (r : Reservoir)
    (w : r.Within d) : 1 ≤ number fl t r ∧ number fl t r < 2 ^ 31 := by
  have := number_range h d ok t r w
  constructor
  · exact this.1
  · have : number fl t r < 500000000 := this.2
    norm_num; omega

/-- **C34.** The rows of the chemistry table carry pairwise different numbers, for any number of bins per
MRU: no two of the solutions initialised (both time levels) share a number. -/
theorem C34_table {fl : Rat → Rat} (h : Single fl) (d : Dims) (ok : d.Ok)
    (hb : ∀ k, 1 ≤ k → k ≤ d.nmru → d.nacsc k ≤ d.nac) : (table fl d).Nodup :=
  table_nodup h d ok hb

example : number roundQ .final (.bin 500 50) = 205500500 ∧ number roundQ .begin (.data 41) = 1041 ∧
    (Reservoir.bin 500 50).Within declaredMax ∧ declaredMax.Ok ∧ Single roundQ :=
  ⟨by decide +kernel, by decide +kernel, ⟨⟨by decide, by decide⟩, by decide, by decide⟩, declaredMax_ok, roundQ_single⟩

/-- The bound on the MRUs is sharp: with 1001 MRUs the canopy of MRU 1001 and the snowpack of MRU 1 would
share a number. -/
example : number roundQ .begin (.hill 1 1001) = number roundQ .begin (.hill 2 1) := by decide +kernel

/-! ### C35 -/

/-- **C35.** The number of a reservoir leads back to its indices. -/
theorem C35_indices {fl : Rat → Rat} (h : Single fl) (d : Dims) (ok : d.Ok) (t : Time) (r : Reservoir)
    (w : r.Within d) : (isoln fl (number fl t r) d.nchemdat d.nmru d.nac).indices = r.indices := by
  rw [isoln_number h d ok t r w]; rfl

/-- **C35.** The row is inside the table. -/
theorem C35_inside {fl : Rat → Rat} (h : Single fl) (d : Dims) (ok : d.Ok) (t : Time) (r : Reservoir)
    (w : r.Within d) : 1 ≤ rowOf fl d t r ∧ rowOf fl d t r ≤ nsoln d := by
  rw [rowOf_eq h d ok t r w]; exact place_inside d r w

/-- **C35.** Both time levels of a reservoir share the row. -/
theorem C35_time {fl : Rat → Rat} (h : Single fl) (d : Dims) (ok : d.Ok) (r : Reservoir)
    (w : r.Within d) : rowOf fl d .begin r = rowOf fl d .final r := by
  rw [rowOf_eq h d ok _ r w, rowOf_eq h d ok _ r w]

/-- **C35.** Different reservoirs have different rows. -/
theorem C35_unique {fl : Rat → Rat} (h : Single fl) (d : Dims) (ok : d.Ok) (t t' : Time) (r r' : Reservoir)
    (w : r.Within d) (w' : r'.Within d) (e : rowOf fl d t r = rowOf fl d t' r') : r = r' := by
  rw [rowOf_eq h d ok _ r w, rowOf_eq h d ok _ r' w'] at e
  exact place_inj d r r' w w' e

/-- **C35.** The rows filled at initialisation (both time levels of every reservoir) fit the table. -/
theorem C35_table_fits (fl : Rat → Rat) (d : Dims) (hb : ∀ k, 1 ≤ k → k ≤ d.nmru → d.nacsc k ≤ d.nac) :
    (table fl d).length ≤ nsoln d :=
  table_fits fl d hb

example : rowOf roundQ declaredMax .final (.bin 500 50) = 27042 ∧
    rowOf roundQ declaredMax .begin (.hill 7 1) = 27043 ∧ nsoln declaredMax = 62244 :=
  ⟨by decide +kernel, by decide +kernel, by decide⟩

/-- **C35, partial.** The row a number leads to is the row initialised for the reservoir.  Missing: MRUs
with fewer bins than the largest number (`C35_bins_violated`). -/
theorem C35_contents_partial {fl : Rat → Rat} (h : Single fl) (d : Dims) (ok : d.Ok) (u : d.Uniform)
    (t : Time) (r : Reservoir) (w : r.Within d) :
    (table fl d)[(rowOf fl d t r).toNat - 1]? = some (number fl .begin r) := by
  rw [rowOf_eq h d ok t r w]; exact table_place fl d u r w

/-- **C35, partial.** A chemical variable chosen by the user reports the row its number leads to.
Missing: as before. -/
theorem C35_chemvar_partial {fl : Rat → Rat} (h : Single fl) (d : Dims) (ok : d.Ok) (u : d.Uniform)
    (r : Reservoir) (w : r.Within d) (hp : r ≠ .pure) (lut : List (Int × Int)) (i : Nat) (x : Int)
    (hi : lut[i]? = some (x, number fl .begin r)) :
    (chemvars 2 (table fl d).tail lut)[i]? = some (rowOf fl d .begin r, number fl .begin r) := by
  have hc := table_place fl d u r w
  have hn := table_nodup h d ok (fun k h1 h2 => Nat.le_of_eq (u k h1 h2))
  have hin := place_inside d r w
  have ht : table fl d = 1 :: (table fl d).tail := rfl
  have h1 : place d r ≠ 1 := by
    intro e
    exact hp (place_inj d r .pure w trivial e)
  have hq : (place d r).toNat - 1 = ((place d r).toNat - 2) + 1 := by omega
  rw [rowOf_eq h d ok _ r w]
  rw [hq, ht, List.getElem?_cons_succ] at hc
  rcases chemvars_spec (table fl d).tail 2 lut i x _ hi with ⟨hno, _⟩ | ⟨p, hp1, hp2⟩
  · exact (hno (List.mem_of_getElem? hc)).elim
  · rw [ht] at hn
    have := nodup_index _ (List.nodup_cons.mp hn).2 _ _ _ hc hp1
    rw [hp2]
    congr 2
    omega

/-- **C35, any number of bins.** The row reported for a chemical variable is one initialised with exactly
its number. -/
theorem C35_chemvar (fl : Rat → Rat) (d : Dims) (lut : List (Int × Int)) (i : Nat) (x n : Int)
    (hi : lut[i]? = some (x, n)) (hn : n ∈ (table fl d).tail) :
    ∃ row : Nat, (chemvars 2 (table fl d).tail lut)[i]? = some ((row : Int), n) ∧
      1 < row ∧ (table fl d)[row - 1]? = some n := by
  rcases chemvars_spec (table fl d).tail 2 lut i x n hi with ⟨hno, _⟩ | ⟨p, hp1, hp2⟩
  · exact (hno hn).elim
  · refine ⟨p + 2, by rw [hp2]; push_cast; congr 2; ring, by omega, ?_⟩
    have ht : table fl d = 1 :: (table fl d).tail := rfl
    rw [ht, show p + 2 - 1 = p + 1 from by omega, List.getElem?_cons_succ]
    exact hp1

theorem mapM_some {α β : Type} (l : List α) (f : α → Option β) (g : α → β) (h : ∀ a ∈ l, f a = some (g a)) :
    l.mapM f = some (l.map g) := by
  induction l with
  | nil => rfl
  | cons a l ih =>
    simp [List.mapM_cons, h a List.mem_cons_self, ih (fun b hb => h b (List.mem_cons_of_mem _ hb))]

/-- **C35, partial.** The reactants used when mixing into a reservoir (at either time level) are the
reservoir's own: for each kind its own number if a reactant is given for the reservoir, and none (−1)
otherwise.  Missing: MRUs with fewer bins than the largest number (`C35_reactants_violated`). -/
theorem C35_reactants_partial {fl : Rat → Rat} (h : Single fl) (d : Dims) (ok : d.Ok) (u : d.Uniform)
    (p : Initial) (t : Time) (r : Reservoir) (w : r.Within d) :
    ∃ l, fillEnt fl d p (number fl t r) = some l ∧ l.length = 11 ∧
      ∀ j, 2 ≤ j → j ≤ 11 →
        (j ∈ [2, 3, 4, 6, 8] ∧ Given p j r → l[j - 1]? = some (number fl .begin r)) ∧
        (¬ (j ∈ [2, 3, 4, 6, 8] ∧ Given p j r) → l[j - 1]? = some (-1)) := by
  have hin := place_inside d r w
  have hloc := isoln_number h d ok t r w
  have hloc0 := isoln_number h d ok .begin r w
  have hc := table_place fl d u r w
  have hs : ∀ j, srcInit fl d p (place d r) j =
      some (if srcFirst d p (place d r).toNat (isoln fl (number fl .begin r) d.nchemdat d.nmru d.nac) j ≠ -1
        then number fl .begin r else -1) := by
    intro j
    unfold srcInit
    rw [if_neg (by omega), hc]
    dsimp only
    split <;> rfl
  have hg : ∀ j, (srcFirst d p (place d r).toNat (isoln fl (number fl .begin r) d.nchemdat d.nmru d.nac) j ≠ -1)
      ↔ (j ∈ [2, 3, 4, 6, 8] ∧ Given p j r) := by
    intro j
    by_cases hj : j ∈ [2, 3, 4, 6, 8]
    · simp only [hj, true_and]
      cases r with
      | pure =>
        unfold srcFirst
        rw [if_neg (fun hn => hn hj)]
        simp [place, Given]
      | data i =>
        obtain ⟨w1, w2⟩ := w
        dsimp only [Reservoir.indices] at hloc0
        rw [hloc0]
        unfold srcFirst
        rw [if_neg (fun hn => hn hj), if_neg (by simp only [place]; omega)]
        simp only [Given, iff_false, ne_eq, not_not]
        by_cases h1 : (i : Int) = 1
        · rw [if_pos h1]
        · rw [if_neg h1]
          split
          · rfl
          · rw [if_neg (by omega), if_neg (by omega)]
      | hill a k =>
        have h1 : place d (.hill a k) ≠ 1 := by
          intro e; have := place_inj d _ .pure w trivial e; cases this
        dsimp only [Reservoir.indices] at hloc0
        rw [hloc0]
        unfold srcFirst
        rw [if_neg (fun hn => hn hj), if_neg (by omega)]
        obtain ⟨⟨w1, w2, w3, w4⟩, w5, w6⟩ := w
        simp only [Given]
        rw [if_neg (by omega), if_neg (by omega)]
        by_cases ha : a ≤ 9
        · rw [if_pos (by omega), if_neg (by omega)]
          simp [ha]
        · rw [if_neg (by omega), if_neg (by omega)]
          simp [ha]
      | bin k l =>
        have h1 : place d (.bin k l) ≠ 1 := by
          intro e; have := place_inj d _ .pure w trivial e; cases this
        dsimp only [Reservoir.indices] at hloc0
        rw [hloc0]
        unfold srcFirst
        rw [if_neg (fun hn => hn hj), if_neg (by omega)]
        obtain ⟨⟨w1, w2⟩, w3, w4⟩ := w
        simp only [Given]
        rw [if_neg (by omega), if_neg (by omega), if_pos (by omega), if_pos (by omega)]
      | segment s =>
        have h1 : place d (.segment s) ≠ 1 := by
          intro e; have := place_inj d _ .pure w trivial e; cases this
        dsimp only [Reservoir.indices] at hloc0
        rw [hloc0]
        unfold srcFirst
        rw [if_neg (fun hn => hn hj), if_neg (by omega)]
        simp only [Given]
        rw [if_neg (by omega), if_neg (by omega), if_neg (by omega)]
        by_cases hs0 : 0 < s
        · rw [if_pos (by omega)]; simp [hs0]
        · rw [if_neg (by omega)]; simp [hs0]
    · unfold srcFirst
      rw [if_pos hj]; simp [hj]
  have hf : fillEnt fl d p (number fl t r) = some (-1 :: (List.range' 2 10).map fun j =>
      if srcFirst d p (place d r).toNat (isoln fl (number fl .begin r) d.nchemdat d.nmru d.nac) j ≠ -1
        then number fl .begin r else -1) := by
    unfold fillEnt
    rw [hloc]
    dsimp only
    rw [mapM_some _ _ _ (fun j _ => hs j)]
    rfl
  refine ⟨_, hf, by simp, ?_⟩
  intro j h1 h2
  have hidx : (List.range' 2 10)[j - 2]? = some j := by
    rw [List.getElem?_range' (by omega)]; congr 1; omega
  have hat : ∀ f : Nat → Int, (-1 :: (List.range' 2 10).map f)[j - 1]? = some (f j) := by
    intro f
    rw [show j - 1 = (j - 2) + 1 from by omega, List.getElem?_cons_succ, List.getElem?_map, hidx]
    rfl
  rw [hat]
  refine ⟨fun hG => ?_, fun hG => ?_⟩
  · rw [if_pos ((hg j).mpr hG)]
  · rw [if_neg (fun x => hG ((hg j).mp x))]

/-- Two MRUs, both with two bins, one segment: the hypotheses of the partial theorems hold. -/
def twoMrus : Dims := ⟨1, 2, 2, 1, fun _ => 2⟩

/-- Pure phases (kind 6) for saturated zones and for bins. -/
def phases : Initial := ⟨0, fun j res _ => if j = 6 ∧ res = 8 then 1 else -1, fun j _ _ => if j = 6 then 3 else -1, fun _ _ => -1⟩

example : twoMrus.Ok ∧ twoMrus.Uniform ∧
    fillEnt roundQ twoMrus phases (number roundQ .final (.hill 8 2)) =
      some [-1, -1, -1, -1, -1, 108002000, -1, -1, -1, -1, -1] ∧
    chemvars 2 (table roundQ twoMrus).tail [(-99, 108002000), (-99, 105002010)] =
      [(18, 108002000), (13, 105002010)] :=
  ⟨⟨by decide, by decide, by decide, by decide⟩, fun _ _ _ => rfl, by decide +kernel, by decide +kernel⟩

/-- As before, but the first MRU has one bin only. -/
def unevenBins : Dims := ⟨1, 2, 2, 1, fun k => if k = 1 then 1 else 2⟩

/-- **C35 violated.** If an MRU has fewer bins than the largest number, numbers lead to rows initialised for
other reservoirs: that of the saturated zone of MRU 2 to the row of the saturated preferential flow of
MRU 1.  The chemical variable chosen for it reports yet another row than the one its chemistry is stored in. -/
theorem C35_bins_violated :
    unevenBins.Ok ∧ (Reservoir.hill 8 2).Within unevenBins ∧
    (table roundQ unevenBins)[(rowOf roundQ unevenBins .begin (.hill 8 2)).toNat - 1]? =
      some (number roundQ .begin (.hill 9 1)) ∧
    chemvars 2 (table roundQ unevenBins).tail [(-99, number roundQ .begin (.hill 8 2))] ≠
      [(rowOf roundQ unevenBins .begin (.hill 8 2), number roundQ .begin (.hill 8 2))] :=
  ⟨⟨by decide, by decide, by decide, by decide⟩, ⟨⟨by decide, by decide, by decide, by decide⟩, by decide, by decide⟩,
    by decide +kernel, by decide +kernel⟩

/-- **C35 violated.** In that case the reactants of another reservoir are used, or none although some are
given: mixing into the saturated zone of MRU 2 uses no pure phases, mixing into that of MRU 1 uses those of
MRU 2. -/
theorem C35_reactants_violated :
    fillEnt roundQ unevenBins phases (number roundQ .final (.hill 8 2)) =
      some [-1, -1, -1, -1, -1, -1, -1, -1, -1, -1, -1] ∧
    fillEnt roundQ unevenBins phases (number roundQ .final (.hill 8 1)) =
      some [-1, -1, -1, -1, -1, number roundQ .begin (.hill 8 2), -1, -1, -1, -1, -1] :=
  ⟨by decide +kernel, by decide +kernel⟩

/-- **C35 violated** for the reservoir kind 6 (combined unsaturated zone), which numbers can still be asked
for (phreeq_mms.F90:10347) though the table has no rows for it: its number leads to the row of a bin. -/
theorem C35_combined_violated :
    (isoln roundQ (solnnum roundQ 0 6 0 2 0 0) 1 2 2).row = rowOf roundQ twoMrus .begin (.bin 2 2) ∧
    (isoln roundQ (solnnum roundQ 0 6 0 2 0 0) 1 2 2).ires = 6 :=
  ⟨by decide +kernel, by decide +kernel⟩

/-! ### C42 -/

/-- **C42.** Fractions are accepted exactly if their sum (after the replacement of negative ones, computed
by rounded additions) differs from one by no more than 0.001 (the single precision number nearest to it). -/
theorem C42_accepted (rd : Rat → Rat) (mix : List (Int × Rat)) :
    (checkfracs rd mix).1 = 0 ↔ |rd (1 - roundedSum rd (checkfracs rd mix).2)| ≤ tol := by
  have h := fracLoop_sum rd mix (0, false, false)
  unfold checkfracs roundedSum
  dsimp only
  rw [← h]
  by_cases hc : |rd (1 - (fracLoop rd (0, false, false) mix).1)| > tol
  · rw [if_pos hc]
    simp only [Int.one_ne_zero, false_iff]
    linarith
  · rw [if_neg hc]
    simp only [true_iff]
    linarith

/-- **C42.** In exact arithmetic: accepted fractions sum to one within 0.00100000005. -/
theorem C42_sum (mix : List (Int × Rat)) (h : (checkfracs id mix).1 = 0) :
    |1 - (checkfracs id mix).2.sum| ≤ 1 / 1000 + 1 / 20000000000 := by
  have := (C42_accepted id mix).mp h
  have hs : ∀ (l : List Rat) (a : Rat), l.foldl (fun s x => id (s + x)) a = a + l.sum := by
    intro l
    induction l with
    | nil => simp
    | cons x l ih => intro a; simp only [List.foldl_cons, List.sum_cons]; rw [ih]; simp only [id]; ring
  unfold roundedSum at this
  rw [hs] at this
  simp only [id, zero_add] at this
  refine le_trans this ?_
  decide +kernel

/-- **C42.** Rejection happens for fractions summing to something else. -/
theorem C42_rejected (mix : List (Int × Rat)) (h : (checkfracs id mix).2.sum ≤ 99 / 100) :
    (checkfracs id mix).1 = 1 := by
  have hne : (checkfracs id mix).1 ≠ 0 := by
    intro h0
    have := C42_sum mix h0
    rw [abs_le] at this
    have := this.2
    norm_num at this
    linarith
  have h01 : (checkfracs id mix).1 = 1 ∨ (checkfracs id mix).1 = 0 := by
    unfold checkfracs; dsimp only; split
    · exact Or.inl rfl
    · exact Or.inr rfl
  rcases h01 with e | e
  · exact e
  · exact (hne e).elim

/-- **C42.** Fractions that are not negative, and those of solutions that may have a negative one, are left
alone; none is added or lost. -/
theorem C42_unchanged (rd : Rat → Rat) (mix : List (Int × Rat)) :
    (checkfracs rd mix).2.length = mix.length ∧
    ∀ (i : Nat) (n : Int) (x : Rat), mix[i]? = some (n, x) → 0 ≤ x ∨ MayBeNegative n →
      (checkfracs rd mix).2[i]? = some x := by
  refine ⟨fracLoop_length rd mix _, ?_⟩
  intro i n x hi h
  refine (fracLoop_at rd mix _ i n x hi).2 ?_
  rcases h with h | h
  · exact Or.inl h
  · exact Or.inr (Or.inl h)

/-- **C42, partial.** Any other negative fraction is replaced by zero.  Missing: those listed after a
negative fraction of evaporation or melt (`C42_after_evaporation_violated`). -/
theorem C42_negative_partial (rd : Rat → Rat) (mix : List (Int × Rat)) (i : Nat) (n : Int) (x : Rat)
    (hi : mix[i]? = some (n, x)) (hx : x < 0) (hn : ¬ MayBeNegative n)
    (hb : ∀ e ∈ mix.take i, e.2 < 0 → ¬ MayBeNegative e.1) :
    (checkfracs rd mix).2[i]? = some 0 := by
  refine (fracLoop_at rd mix (0, false, false) i n x hi).1 hx hn rfl ?_
  rintro ⟨e, he, h1, h2⟩
  exact hb e he h1 h2

/-- A canopy, a slightly negative deposition and evaporation: the deposition is set to zero, evaporation
kept; accepted. -/
example : checkfracs id [(101001000, 6 / 5), (1001, -1 / 100000), (1, -1 / 5)] = (0, [6 / 5, 0, -1 / 5]) := by
  decide +kernel

/-- **C42 violated.** Listed after evaporation, the negative fraction of any other solution is kept. -/
theorem C42_after_evaporation_violated :
    checkfracs id [(1, -1 / 5), (101001000, 3 / 2), (1001, -3 / 10)] = (0, [-1 / 5, 3 / 2, -3 / 10]) ∧
    ¬ MayBeNegative 1001 := by decide +kernel

/-- **C42 violated.** Rejected fractions are mixed nevertheless: the callers only write a message. -/
theorem C42_rejected_violated :
    (checkfracs id [(101001000, 1 / 2), (1001, 1 / 4)]).1 = 1 ∧
    checkedMix id (fun m => m) [(101001000, 1 / 2), (1001, 1 / 4)] = [(101001000, 1 / 2), (1001, 1 / 4)] := by
  decide +kernel

end Verif.SolnNum
