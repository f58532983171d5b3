import Verif.Lemmas.TspFilter
import Mathlib.Tactic.NormNum
import Mathlib.Data.List.Chain
import Mathlib.Analysis.SpecialFunctions.Trigonometric.Basic
/-
C137: digital filters of TSPROC.
-/
namespace Verif.Tsp

variable {K : Type} [Field K] [LinearOrder K]

/-! ### The block -/

omit [Field K] [LinearOrder K] in
private theorem toNat_stage {s : Option Int} {ns : Nat} (h : s = some (ns : Int) ∨ (s = none ∧ ns = 1)) :
    s.getD 1 = (ns : Int) := by
  rcases h with rfl | ⟨rfl, rfl⟩ <;> rfl

/-- The tests of the block leave exactly the filter that it asks for. -/
theorem C137_checks [IsStrictOrderedRing K] (b : FilterBlock K) (f : Filter K) : filterChecks b = some f ↔ Asks b f := by
  constructor
  · intro h
    unfold filterChecks at h
    split at h
    · cases h
    rename_i hp
    split at h
    · cases h
    rename_i hq
    rw [not_not] at hp
    obtain ⟨p1, p2, p3, p4⟩ := hp
    split at h
    · cases h
    · rename_i ht
      repeat (split at h; · cases h)
      rename_i h1 h2 h3 h4
      obtain ⟨al, ha, rfl⟩ := Option.map_eq_some_iff.mp h
      simp only [not_or, Bool.not_eq_true, Option.isSome_eq_false_iff, Option.isNone_iff_eq_none] at h1 h2 h3 h4
      refine ⟨ht, h2, h1, h3.1, h3.2.1, h3.2.2, h4, ha, ?_, ?_, ?_, rfl, rfl⟩
      · rw [ha] at p4
        simpa [positive] using p4
      · rcases hpa : b.passes with _ | n
        · right; exact ⟨rfl, rfl⟩
        · left
          rw [hpa] at hq
          simp only [ne_eq, reduceCtorEq, not_false_eq_true, Option.some.injEq, true_and, not_and, not_not] at hq
          by_cases hn : n = 1
          · subst hn; rfl
          · obtain rfl := hq hn; rfl
      · rcases hpa : b.passes with _ | n
        · left; rfl
        · rw [hpa] at hq
          simp only [ne_eq, reduceCtorEq, not_false_eq_true, Option.some.injEq, true_and, not_and, not_not] at hq
          by_cases hn : n = 1
          · subst hn; left; rfl
          · obtain rfl := hq hn; right; rfl
    · rename_i ht
      iterate 4 (split at h; · cases h)
      rename_i h1 h2 h3 h4
      simp only [not_or, Bool.not_eq_true, Option.isSome_eq_false_iff, Option.isNone_iff_eq_none, not_lt] at h1 h2 h3 h4
      have hst : b.stages = some (((b.stages.getD 1).toNat : Nat) : Int) ∨ (b.stages = none ∧ (b.stages.getD 1).toNat = 1) := by
        rcases hs : b.stages with _ | n
        · right; exact ⟨rfl, rfl⟩
        · left
          rw [hs] at h4
          simp only [Option.getD_some] at h4 ⊢
          rw [Int.toNat_of_nonneg (by omega)]
      split at h
      · cases h
      · rename_i hpass
        split at h
        · rename_i f1 f2 e1 e2
          repeat (split at h; · cases h)
          rename_i g1 g2 g3
          cases h
          simp only [Bool.not_eq_true, Option.isSome_eq_false_iff, Option.isNone_iff_eq_none, not_le] at g1 g2 g3
          rw [e1] at p2
          exact ⟨ht, hpass, hst, by omega, by omega, g1, e1, e2, by simpa [positive] using p2, g2, g3, rfl, h2, h1, h3.1, h3.2⟩
        · cases h
      · rename_i p hpb hpass
        repeat (split at h; · cases h)
        rename_i g1 g2
        obtain ⟨fr, hf, rfl⟩ := Option.map_eq_some_iff.mp h
        simp only [not_or, Bool.not_eq_true, Option.isSome_eq_false_iff, Option.isNone_iff_eq_none] at g1
        rw [hf] at p1
        cases p with
        | band => exact (hpb rfl).elim
        | low =>
          refine ⟨ht, hpass, hst, by omega, by omega, hf, rfl, g1.1, g1.2, by simpa [positive] using p1, rfl, fun hr => ⟨rfl, ?_⟩, h2, h1,
            h3.1, h3.2⟩
          by_contra hne
          exact g2 ⟨hr, Or.inr (by omega)⟩
        | high =>
          refine ⟨ht, hpass, hst, by omega, by omega, hf, rfl, g1.1, g1.2, by simpa [positive] using p1, rfl, fun hr => ?_, h2, h1,
            h3.1, h3.2⟩
          exact absurd ⟨hr, Or.inl (by simp)⟩ g2
  · intro h
    cases f with
    | baseflow al n zero input =>
      obtain ⟨h1, h2, h3, h4, h5, h6, h7, h8, h9, h10, h11, h12, h13⟩ := h
      have hn : b.passes.getD 1 = (n : Int) := by rcases h10 with h | ⟨h, rfl⟩ <;> rw [h] <;> rfl
      unfold filterChecks
      rw [if_neg (by simp [h4, h5, h6, h8, positive, h9]), if_neg, h1]
      · simp only [h2, h3, h4, h5, h6, h7, h8, h12, h13, hn]
        simp
      · rcases h10 with h | ⟨h, rfl⟩ <;> rw [h]
        · rcases h11 with rfl | rfl <;> simp
        · simp
    | butterworth p ns f1 f2 rev =>
      cases p with
      | band =>
        obtain ⟨h1, h2, h3, h4, h5, h6, h7, h8, h9, h10, h11, h12, h13, h14, h15, h16⟩ := h
        have hn := toNat_stage h3
        unfold filterChecks
        rw [if_neg (by simp [h6, h7, h8, h13, positive, h9, h9.trans h10]), if_neg (by simp [h14]), h1]
        simp only [h2, h6, h7, h8, h11, h12, h13, h14, h15, h16, hn]
        simp [h10]
        omega
      | low =>
        obtain ⟨h1, h2, h3, h4, h5, h6, rfl, h8, h9, h10, h11, h12, h13, h14, h15, h16⟩ := h
        have hn := toNat_stage h3
        unfold filterChecks
        rw [if_neg (by simp [h6, h8, h9, h13, positive, h10]), if_neg (by simp [h14]), h1]
        simp only [h2, h6, h8, h9, h11, h13, h14, h15, h16, hn]
        rw [if_neg (by simp), if_neg (by simp), if_neg (by simp), if_neg (by omega), if_neg (by simp), if_neg]
        · simp
        · rintro ⟨hr, h | h⟩
          · exact h rfl
          · have := (h12 hr).2
            omega
      | high =>
        obtain ⟨h1, h2, h3, h4, h5, h6, rfl, h8, h9, h10, h11, h12, h13, h14, h15, h16⟩ := h
        have hn := toNat_stage h3
        unfold filterChecks
        rw [if_neg (by simp [h6, h8, h9, h13, positive, h10]), if_neg (by simp [h14]), h1]
        simp only [h2, h6, h8, h9, h11, h13, h14, h15, h16, hn]
        rw [if_neg (by simp), if_neg (by simp), if_neg (by simp), if_neg (by omega), if_neg (by simp), if_neg]
        · simp
        · rintro ⟨hr, -⟩
          exact absurd (h12 hr).1 (by simp)

/-- The times of the series have equal distances. -/
def EquallySpaced (d : Int) (cs : List Clock) : Prop := ∀ (i : Nat) (h : i + 1 < cs.length), cs[i + 1].time - cs[i].time = d

omit [Field K] [LinearOrder K] in
private theorem equalGaps_iff (lag : Int) (h0 : 0 ≤ lag) : ∀ (l : List Clock), (∀ c ∈ l, c.Proper) →
    (equalGaps lag l = true ↔ l.IsChain fun p q => q.time - p.time = lag)
  | [], _ => by simp [equalGaps]
  | [c], _ => by simp [equalGaps]
  | p :: q :: r, h => by
    have hp := h p (by simp)
    have hq := h q (by simp)
    obtain ⟨c1, c2⟩ := carry_spec p.days (p.secs + lag) (by unfold Clock.Proper at hp; omega)
    rw [equalGaps, Bool.and_eq_true, decide_eq_true_eq, equalGaps_iff lag h0 (q :: r) (fun c hc => h c (by simp [hc])),
      List.isChain_cons_cons]
    refine and_congr_left fun _ => ⟨fun e => ?_, fun e => ?_⟩
    · rw [← e, c2]; unfold Clock.time; omega
    · refine clock_eq c1 hq ?_
      rw [c2]
      unfold Clock.time at e ⊢
      omega

private theorem spaced {cs : List Clock} (hc : ∀ c ∈ cs, c.Proper) (hi : cs.Pairwise fun p q => p.time < q.time) (hl : 2 ≤ cs.length) :
    0 < firstLag cs ∧ (equalGaps (firstLag cs) cs.tail = true ↔ EquallySpaced (firstLag cs) cs) ∧
    ∀ d, EquallySpaced d cs → firstLag cs = d := by
  match cs, hl with
  | p :: q :: r, _ =>
    have e : firstLag (p :: q :: r) = q.time - p.time := by simp only [firstLag, Clock.time]; omega
    have h0 : 0 < firstLag (p :: q :: r) := by
      have := (List.pairwise_cons.mp hi).1 q (by simp)
      omega
    refine ⟨h0, ?_, fun d hd => ?_⟩
    · rw [List.tail_cons, equalGaps_iff _ h0.le _ fun c h => hc c (by simp [List.mem_cons.mp h])]
      have : (q :: r).IsChain (fun a b => b.time - a.time = firstLag (p :: q :: r)) ↔
          (p :: q :: r).IsChain (fun a b => b.time - a.time = firstLag (p :: q :: r)) := by
        rw [List.isChain_cons_cons]
        exact ⟨fun h => ⟨e.symm, h⟩, fun h => h.2⟩
      rw [this, List.isChain_iff_getElem]
      rfl
    · have := hd 0 (by simp)
      simp only [List.getElem_cons_zero, List.getElem_cons_succ, Nat.zero_add] at this
      rw [e]
      exact this

private theorem filter_some [IsStrictOrderedRing K] {tr : Trig K} {b : FilterBlock K} {cs : List Clock} {x y : List K} {f : Filter K}
    (hf : Asks b f) (h : digitalFilter tr b cs x = some y) :
    20 ≤ x.length ∧ equalGaps (firstLag cs) cs.tail = true ∧
    (match f with
    | .butterworth p ns f1 f2 rev => butterworth tr p ns f1 f2 rev (firstLag cs) x
    | .baseflow al n zero input => some (clip zero input x (basePasses al x n))) = some y := by
  unfold digitalFilter at h
  rw [(C137_checks b f).mpr hf, Option.bind_some] at h
  split at h
  · cases h
  split at h
  · cases h
  rename_i h1 h2
  refine ⟨by omega, not_not.mp h2, ?_⟩
  cases f <;> exact h

private theorem ge_half [IsStrictOrderedRing K] {f : K} {d : Int} (hd : 0 < d) :
    f ≥ 1 / 2 / ((d : K) / 86400) ↔ ¬ f * (d / 86400) < 1 / 2 := by
  have : (0 : K) < (d : K) / 86400 := div_pos (by exact_mod_cast hd) (by norm_num)
  rw [ge_iff_le, div_le_iff₀ this, not_lt]

private theorem butter_some [IsStrictOrderedRing K] {tr : Trig K} {p : FPass} {ns : Nat} {f1 f2 : K} {rev : Bool} {d : Int} (hd : 0 < d)
    {x y : List K} (h : butterworth tr p ns f1 f2 rev d x = some y) :
    f1 * (d / 86400) < 1 / 2 ∧ f2 * (d / 86400) < 1 / 2 ∧
    (if rev then (coefs tr p ns f1 f2 (d / 86400)).head?.bind fun k => (stage p k x).bind fun y => (stage p k y.reverse).map List.reverse
    else (coefs tr p ns f1 f2 (d / 86400)).foldlM (fun y k => stage p k y) x) = some y := by
  unfold butterworth at h
  simp only at h
  split at h
  · cases h
  · rename_i hn
    rw [ge_half hd, ge_half hd, not_or, not_not, not_not] at hn
    exact ⟨hn.1, hn.2, h⟩

/-- A filter that is not a band pass is accepted if and only if the series has twenty terms at equal distances and the frequency is less
than half of the sampling frequency (times are in days). -/
theorem C137_accepted [IsStrictOrderedRing K] (tr : Trig K) (b : FilterBlock K) (cs : List Clock) (x : List K)
    (hl : cs.length = x.length) (hc : ∀ c ∈ cs, c.Proper) (hi : cs.Pairwise fun p q => p.time < q.time)
    (hb : b.pass ≠ some .band) :
    (∃ y, digitalFilter tr b cs x = some y) ↔ ∃ f, Asks b f ∧ 20 ≤ x.length ∧ ∃ d, EquallySpaced d cs ∧
      ∀ p ns f1 f2 rev, f = .butterworth p ns f1 f2 rev → f1 * (d / 86400) < 1 / 2 := by
  constructor
  · rintro ⟨y, h⟩
    obtain ⟨f, hf, -⟩ := Option.bind_eq_some_iff.mp h
    rw [C137_checks] at hf
    obtain ⟨h20, hg, hm⟩ := filter_some hf h
    obtain ⟨s1, s2, -⟩ := spaced hc hi (by omega)
    refine ⟨f, hf, h20, firstLag cs, s2.mp hg, ?_⟩
    rintro p ns f1 f2 rev rfl
    exact (butter_some s1 hm).1
  · rintro ⟨f, hf, h20, d, hd, hfr⟩
    obtain ⟨s1, s2, s3⟩ := spaced hc hi (by omega)
    obtain rfl := s3 d hd
    unfold digitalFilter
    rw [(C137_checks b f).mpr hf, Option.bind_some, if_neg (by omega), if_neg (by rw [not_not]; exact s2.mpr hd)]
    cases f with
    | baseflow al n zero input => exact ⟨_, rfl⟩
    | butterworth p ns f1 f2 rev =>
      have hp : p ≠ .band := by
        rintro rfl
        exact hb hf.2.1
      have hff : f2 = f1 := by cases p with | band => exact absurd rfl hp | low => exact hf.2.2.2.2.2.2.1 | high => exact hf.2.2.2.2.2.2.1
      have hns : 1 ≤ ns := by cases p with | band => exact absurd rfl hp | low => exact hf.2.2.2.1 | high => exact hf.2.2.2.1
      have h1 := hfr p ns f1 f2 rev rfl
      simp only
      unfold butterworth
      simp only
      rw [if_neg (by rw [hff, ge_half s1, or_self, not_not]; exact h1)]
      split
      · obtain ⟨m, rfl⟩ : ∃ m, ns = m + 1 := ⟨ns - 1, by omega⟩
        have : ∃ k, (coefs tr p (m + 1) f1 f2 (((firstLag cs : Int) : K) / 86400)).head? = some k := by
          unfold coefs
          rw [List.range_succ_eq_map]
          exact ⟨_, rfl⟩
        obtain ⟨k, hk⟩ := this
        rw [hk, Option.bind_some, stage_some hp, Option.bind_some, stage_some hp]
        exact ⟨_, rfl⟩
      · exact foldlM_some hp _ _

/-- A block that asks for no filter is refused; so are short series and those with unequal distances, for every filter. -/
theorem C137_refused [IsStrictOrderedRing K] (tr : Trig K) (b : FilterBlock K) (cs : List Clock) (x : List K) :
    ((∀ f, ¬ Asks b f) → digitalFilter tr b cs x = none) ∧ (x.length < 20 → digitalFilter tr b cs x = none) ∧
    (2 ≤ cs.length → (∀ c ∈ cs, c.Proper) → cs.Pairwise (fun p q => p.time < q.time) → (∀ d, ¬ EquallySpaced d cs) →
      digitalFilter tr b cs x = none) := by
  refine ⟨fun h => ?_, fun h => ?_, fun hl hc hi h => ?_⟩
  · by_contra hne
    obtain ⟨y, hy⟩ := Option.ne_none_iff_exists'.mp hne
    obtain ⟨f, hf, -⟩ := Option.bind_eq_some_iff.mp hy
    exact h f ((C137_checks b f).mp hf)
  · by_contra hne
    obtain ⟨y, hy⟩ := Option.ne_none_iff_exists'.mp hne
    obtain ⟨f, hf, -⟩ := Option.bind_eq_some_iff.mp hy
    have := (filter_some ((C137_checks b f).mp hf) hy).1
    omega
  · by_contra hne
    obtain ⟨y, hy⟩ := Option.ne_none_iff_exists'.mp hne
    obtain ⟨f, hf, -⟩ := Option.bind_eq_some_iff.mp hy
    exact h _ ((spaced hc hi hl).2.1.mp (filter_some ((C137_checks b f).mp hf) hy).2.1)

/-! ### Butterworth filters -/

/-- The new series is the old one after the stages, one after the other, with coefficients for the distance of the terms in days. -/
theorem C137_stages [IsStrictOrderedRing K] (tr : Trig K) (b : FilterBlock K) (cs : List Clock) (x y : List K) (p : FPass) (ns : Nat)
    (f1 f2 : K) (d : Int) (hl : cs.length = x.length) (hc : ∀ c ∈ cs, c.Proper) (hi : cs.Pairwise fun p q => p.time < q.time)
    (hd : EquallySpaced d cs) (hb : Asks b (.butterworth p ns f1 f2 false)) (h : digitalFilter tr b cs x = some y) :
    Stages p (coefs tr p ns f1 f2 (d / 86400)) x y := by
  obtain ⟨h20, hg, hm⟩ := filter_some hb h
  obtain ⟨s1, s2, s3⟩ := spaced hc hi (by omega)
  obtain rfl := s3 d hd
  obtain ⟨-, -, h3⟩ := butter_some s1 hm
  rw [if_neg (by simp)] at h3
  exact foldlM_stages _ (by omega) h3

/-- With the second stage reversed, the first stage is applied forward and then backward in time. -/
theorem C137_reverse [IsStrictOrderedRing K] (tr : Trig K) (b : FilterBlock K) (cs : List Clock) (x y : List K) (p : FPass) (ns : Nat)
    (f1 f2 : K) (d : Int) (hl : cs.length = x.length) (hc : ∀ c ∈ cs, c.Proper) (hi : cs.Pairwise fun p q => p.time < q.time)
    (hd : EquallySpaced d cs) (hb : Asks b (.butterworth p ns f1 f2 true)) (h : digitalFilter tr b cs x = some y) :
    p = .low ∧ ns = 2 ∧ ∃ k u, (coefs tr p ns f1 f2 (d / 86400))[0]? = some k ∧ IsStage p k x u ∧ IsStage p k u.reverse y.reverse := by
  obtain ⟨h20, hg, hm⟩ := filter_some hb h
  obtain ⟨s1, s2, s3⟩ := spaced hc hi (by omega)
  obtain rfl := s3 d hd
  obtain ⟨-, -, h3⟩ := butter_some s1 hm
  rw [if_pos rfl] at h3
  obtain ⟨k, hk, h4⟩ := Option.bind_eq_some_iff.mp h3
  obtain ⟨u, hu, h5⟩ := Option.bind_eq_some_iff.mp h4
  obtain ⟨v, hv, rfl⟩ := Option.map_eq_some_iff.mp h5
  have r1 := stage_rel (by omega) hu
  have r2 := stage_rel (by rw [List.length_reverse, r1.1]; omega) hv
  have hp : p = .low ∧ ns = 2 := by
    cases p with
    | band => exact absurd hb.2.2.2.2.2.2.2.2.2.2.2.1 (by simp)
    | low => exact hb.2.2.2.2.2.2.2.2.2.2.2.1 rfl
    | high => exact hb.2.2.2.2.2.2.2.2.2.2.2.1 rfl
  refine ⟨hp.1, hp.2, k, u, by rw [← List.head?_eq_getElem?]; exact hk, (rel_iff _ _ _ _).mp r1, ?_⟩
  rw [List.reverse_reverse]
  exact (rel_iff _ _ _ _).mp r2

/-- The stages are those of Butterworth filters by bilinear transform: with `w` the tangent of the frequency (times distance and pi) and
`c` the cosine of the stage, the response at `z` (the factor of a delay by one term) is that of the analog stage at `s = (1 - z) / (1 + z)`:
`w² / (s² - 2 c w s + w²)` for low pass and `s² / (s² - 2 c w s + w²)` for high pass. -/
theorem C137_design [IsStrictOrderedRing K] (tr : Trig K) (hg : tr.Good) (p : FPass) (ns i : Nat) (f1 f2 t : K) (h0 : 0 < f1 * t)
    (h1 : f1 * t < 1 / 2) (hi : i < ns) (z : K) (hz : 1 + z ≠ 0) :
    (coefs tr p ns f1 f2 t).length = ns ∧ ∃ k, (coefs tr p ns f1 f2 t)[i]? = some k ∧
      let w := tr.tanPi (f1 * t)
      let c := tr.cosPi ((2 * (((i + 1 : Nat) : K) + ns) - 1) / (4 * ns))
      let s := (1 - z) / (1 + z)
      (p = .low → k.a * (1 + z) ^ 2 * (s ^ 2 - 2 * c * w * s + w ^ 2) = w ^ 2 * (1 + k.b * z + k.c * z ^ 2)) ∧
      (p = .high → k.a * (1 - z) ^ 2 * (s ^ 2 - 2 * c * w * s + w ^ 2) = s ^ 2 * (1 + k.b * z + k.c * z ^ 2)) := by
  obtain ⟨a1, a2⟩ := angle (K := K) hi
  obtain ⟨c1, c2⟩ := hg.2 _ a1 a2
  have hw := hg.1 _ h0 h1
  refine ⟨by simp [coefs], _, by simp only [coefs]; rw [List.getElem?_map, List.getElem?_range hi, Option.map_some], ?_⟩
  simp only
  change _ ∧ _
  have hst : stageCos tr ns (i + 1) = tr.cosPi ((2 * (((i + 1 : Nat) : K) + ns) - 1) / (4 * ns)) := rfl
  rw [← hst] at c2 ⊢
  have hx := mul_one_div_cancel (den_pos hw c2).ne'
  have hs : (1 + z) * ((1 - z) / (1 + z)) = 1 - z := mul_div_cancel₀ _ hz
  generalize (1 - z) / (1 + z) = s at *
  constructor
  · rintro rfl
    simp only [lowCoef]
    generalize stageCos tr ns (i + 1) = c at *
    generalize tr.tanPi (f1 * t) = w at *
    generalize 1 / (1 + w * w - 2 * w * c) = X at *
    have e : (1 + z) ^ 2 * (s ^ 2 - 2 * c * w * s + w ^ 2) = (1 - z) ^ 2 - 2 * c * w * (1 - z) * (1 + z) + w ^ 2 * (1 + z) ^ 2 := by
      rw [← hs]; ring
    linear_combination w * w * X * e + w ^ 2 * hx
  · rintro rfl
    simp only [highCoef]
    generalize stageCos tr ns (i + 1) = c at *
    generalize tr.tanPi (f1 * t) = w at *
    generalize 1 / (1 + w * w - 2 * w * c) = X at *
    have e : (1 + z) ^ 2 * (s ^ 2 - 2 * c * w * s + w ^ 2) = (1 - z) ^ 2 - 2 * c * w * (1 - z) * (1 + z) + w ^ 2 * (1 + z) ^ 2 := by
      rw [← hs]; ring
    have e2 : (1 - z) ^ 2 = (1 + z) ^ 2 * s ^ 2 := by rw [← hs]; ring
    linear_combination X * s ^ 2 * e + s ^ 2 * hx + X * (s ^ 2 - 2 * c * w * s + w ^ 2) * e2

/-- The same for a stage of a band pass, with `w1`, `w2` the tangents of the frequencies:
`(v s)² / (s⁴ + p s³ + (v² + 2 w1 w2) s² + p w1 w2 s + (w1 w2)²)`, `v = w2 - w1` and `p = -2 c v`. -/
theorem C137_design_band [IsStrictOrderedRing K] (tr : Trig K) (hg : tr.Good) (ns i : Nat) (f1 f2 t : K) (h0 : 0 < f1 * t)
    (h1 : f2 * t < 1 / 2) (h12 : tr.tanPi (f1 * t) < tr.tanPi (f2 * t)) (hf : f1 * t < f2 * t) (hi : i < ns) (z : K) (hz : 1 + z ≠ 0) :
    ∃ k, (coefs tr .band ns f1 f2 t)[i]? = some k ∧
      let w1 := tr.tanPi (f1 * t)
      let w2 := tr.tanPi (f2 * t)
      let v := w2 - w1
      let p := -2 * tr.cosPi ((2 * (((i + 1 : Nat) : K) + ns) - 1) / (4 * ns)) * v
      let s := (1 - z) / (1 + z)
      k.a * (1 - z ^ 2) ^ 2 * (s ^ 4 + p * s ^ 3 + (v ^ 2 + 2 * w1 * w2) * s ^ 2 + p * w1 * w2 * s + (w1 * w2) ^ 2) =
        (v * s) ^ 2 * (1 + k.b * z + k.c * z ^ 2 + k.d * z ^ 3 + k.e * z ^ 4) := by
  obtain ⟨a1, a2⟩ := angle (K := K) hi
  obtain ⟨c1, c2⟩ := hg.2 _ a1 a2
  have hw1 := hg.1 _ h0 (hf.trans h1)
  have hw2 := hg.1 _ (h0.trans hf) h1
  refine ⟨_, by simp only [coefs]; rw [List.getElem?_map, List.getElem?_range hi, Option.map_some], ?_⟩
  have hst : stageCos tr ns (i + 1) = tr.cosPi ((2 * (((i + 1 : Nat) : K) + ns) - 1) / (4 * ns)) := rfl
  simp only
  rw [← hst] at c2 ⊢
  generalize stageCos tr ns (i + 1) = c at *
  generalize tr.tanPi (f1 * t) = w1 at *
  generalize tr.tanPi (f2 * t) = w2 at *
  have hs : (1 + z) * ((1 - z) / (1 + z)) = 1 - z := mul_div_cancel₀ _ hz
  generalize (1 - z) / (1 + z) = s at *
  simp only [bandCoef]
  have hv : 0 < w2 - w1 := by linarith
  have hp : 0 < -2 * (w2 - w1) * c := by nlinarith
  have hD : 0 < 1 + -2 * (w2 - w1) * c + ((w2 - w1) * (w2 - w1) + 2 * w1 * w2) + -2 * (w2 - w1) * c * w1 * w2 + w1 * w1 * w2 * w2 := by
    have := mul_pos (mul_pos hp hw1) hw2
    have := mul_pos hw1 hw2
    have := mul_pos this this
    have := mul_pos hv hv
    linarith
  have hx := mul_inv_cancel₀ hD.ne'
  simp only [div_eq_mul_inv]
  generalize (1 + -2 * (w2 - w1) * c + ((w2 - w1) * (w2 - w1) + 2 * w1 * w2) + -2 * (w2 - w1) * c * w1 * w2 + w1 * w1 * w2 * w2)⁻¹ = X at *
  generalize hP : -2 * (w2 - w1) * c = P at *
  have hP' : -2 * c * (w2 - w1) = P := by rw [← hP]; ring
  rw [hP']
  have e : (1 + z) ^ 4 * (s ^ 4 + P * s ^ 3 + ((w2 - w1) ^ 2 + 2 * w1 * w2) * s ^ 2 + P * w1 * w2 * s + (w1 * w2) ^ 2) =
      (1 - z) ^ 4 + P * (1 - z) ^ 3 * (1 + z) + ((w2 - w1) ^ 2 + 2 * w1 * w2) * (1 - z) ^ 2 * (1 + z) ^ 2 +
      P * w1 * w2 * (1 - z) * (1 + z) ^ 3 + (w1 * w2) ^ 2 * (1 + z) ^ 4 := by
    rw [← hs]; ring
  have e2 : (1 - z ^ 2) ^ 2 = (1 + z) ^ 4 * s ^ 2 := by
    have : 1 - z ^ 2 = (1 - z) * (1 + z) := by ring
    rw [this, ← hs]; ring
  rw [e2]
  linear_combination (w2 - w1) * (w2 - w1) * X * s ^ 2 * e + (w2 - w1) ^ 2 * s ^ 2 * hx

/-- A low pass leaves a constant series as it is; a high pass and a band pass make it zero. -/
theorem C137_constant [IsStrictOrderedRing K] (tr : Trig K) (hg : tr.Good) (b : FilterBlock K) (cs : List Clock) (n : Nat) (v : K)
    (y : List K) (p : FPass) (ns : Nat) (f1 f2 : K) (rev : Bool) (hl : cs.length = n) (hc : ∀ c ∈ cs, c.Proper)
    (hi : cs.Pairwise fun p q => p.time < q.time) (hb : Asks b (.butterworth p ns f1 f2 rev))
    (h : digitalFilter tr b cs (List.replicate n v) = some y) :
    y = List.replicate n (if p = .low then v else 0) := by
  obtain ⟨h20, hgap, hm⟩ := filter_some hb h
  rw [List.length_replicate] at h20
  obtain ⟨s1, s2, -⟩ := spaced hc hi (by omega)
  obtain ⟨g1, g2, -⟩ := butter_some s1 hm
  have ht : (0 : K) < ((firstLag cs : Int) : K) / 86400 := div_pos (by exact_mod_cast s1) (by norm_num)
  have hf1 : 0 < f1 := by
    cases p with
    | band => exact hb.2.2.2.2.2.2.2.2.1
    | low => exact hb.2.2.2.2.2.2.2.2.2.1
    | high => exact hb.2.2.2.2.2.2.2.2.2.1
  have hk : ∀ k ∈ coefs tr .low ns f1 f2 (((firstLag cs : Int) : K) / 86400), 1 + k.b + k.c = 4 * k.a := by
    intro k hk
    obtain ⟨i, hi, rfl⟩ := List.mem_map.mp hk
    rw [List.mem_range] at hi
    obtain ⟨a1, a2⟩ := angle (K := K) hi
    exact low_gain (hg.1 _ (mul_pos hf1 ht) g1) (hg.2 _ a1 a2).2
  cases rev with
  | false =>
    have hs := C137_stages tr b cs _ y p ns f1 f2 _ (by rw [List.length_replicate, hl]) hc hi (s2.mp hgap) hb h
    split
    · rename_i hp
      subst hp
      exact stages_unique hs (stages_const_low _ hk n v)
    · rename_i hp
      refine stages_unique hs (stages_const_zero hp _ ?_ n v)
      intro hn
      have := congrArg List.length hn
      simp only [coefs, List.length_map, List.length_range, List.length_nil] at this
      cases p with
      | band => exact absurd hb.2.2.2.1 (by omega)
      | low => exact hp rfl
      | high => exact absurd hb.2.2.2.1 (by omega)
  | true =>
    obtain ⟨rfl, rfl, k, u, hk0, r1, r2⟩ := C137_reverse tr b cs _ y p ns f1 f2 _ (by rw [List.length_replicate, hl]) hc hi (s2.mp hgap) hb h
    have hkk := rel_const_low (hk k (List.mem_of_getElem? hk0)) n v
    obtain rfl := rel_unique ((rel_iff _ _ _ _).mpr r1) hkk
    rw [List.reverse_replicate] at r2
    have := rel_unique ((rel_iff _ _ _ _).mpr r2) hkk
    rw [if_pos rfl, ← List.reverse_reverse y, this, List.reverse_replicate]

private theorem basePasses_spec (al : K) (x : List K) (hx : 2 ≤ x.length) :
    IsQuick al x (basePasses al x 1) ∧ ∃ q1 q2, IsQuick al x q1 ∧ IsQuick al q1.reverse q2 ∧ IsQuick al q2.reverse (basePasses al x 3) := by
  have h1 := basePass_quick al x hx
  have h2 := basePass_quick al (basePass al x).reverse (by rw [List.length_reverse, h1.1]; exact hx)
  have h3 := basePass_quick al (basePass al (basePass al x).reverse).reverse
    (by rw [List.length_reverse, h2.1, List.length_reverse, h1.1]; exact hx)
  exact ⟨h1, _, _, h1, h2, h3⟩

omit [LinearOrder K] in
private theorem asks_passes {b : FilterBlock K} [LinearOrder K] {al : K} {n : Nat} {zero input : Bool} (h : Asks b (.baseflow al n zero input)) :
    n = 1 ∨ n = 3 := h.2.2.2.2.2.2.2.2.2.2.1

/-- Filters without clipping are linear: the filtered sum of multiples of two series is the sum of the multiples of the filtered series. -/
theorem C137_linear [IsStrictOrderedRing K] (tr : Trig K) (b : FilterBlock K) (cs : List Clock) (x x' y y' z : List K) (m n : K)
    (hl : cs.length = x.length) (hl' : cs.length = x'.length) (hc : ∀ c ∈ cs, c.Proper) (hi : cs.Pairwise fun p q => p.time < q.time)
    (hz : b.clipZero = false) (hn : b.clipInput = false) (h : digitalFilter tr b cs x = some y) (h' : digitalFilter tr b cs x' = some y')
    (hs : digitalFilter tr b cs (comb m n x x') = some z) : z = comb m n y y' := by
  obtain ⟨f, hf, -⟩ := Option.bind_eq_some_iff.mp h
  rw [C137_checks] at hf
  have hx : x.length = x'.length := by omega
  have hxl := length_comb m n x x' hx
  obtain ⟨h20, hgap, hm⟩ := filter_some hf h
  obtain ⟨s1, s2, -⟩ := spaced hc hi (by omega)
  have hd := s2.mp hgap
  cases f with
  | butterworth p ns f1 f2 rev =>
    cases rev with
    | false =>
      have a := C137_stages tr b cs x y p ns f1 f2 _ hl hc hi hd hf h
      have a' := C137_stages tr b cs x' y' p ns f1 f2 _ hl' hc hi hd hf h'
      have c := C137_stages tr b cs _ z p ns f1 f2 _ (by omega) hc hi hd hf hs
      exact stages_unique c (stages_comb a a' hx m n)
    | true =>
      obtain ⟨rfl, rfl, k, u, k0, a1, a2⟩ := C137_reverse tr b cs x y p ns f1 f2 _ hl hc hi hd hf h
      obtain ⟨-, -, k', u', k0', b1, b2⟩ := C137_reverse tr b cs x' y' .low 2 f1 f2 _ hl' hc hi hd hf h'
      obtain ⟨-, -, k'', w, k0'', c1, c2⟩ := C137_reverse tr b cs _ z .low 2 f1 f2 _ (by omega) hc hi hd hf hs
      rw [k0] at k0' k0''
      obtain rfl := Option.some.inj k0'
      obtain rfl := Option.some.inj k0''
      rw [← rel_iff] at a1 a2 b1 b2 c1 c2
      obtain rfl := rel_unique c1 (rel_comb a1 b1 hx m n)
      have hu : u.length = u'.length := by rw [a1.1, b1.1, hx]
      rw [comb_reverse _ _ _ _ hu] at c2
      have hr := rel_unique c2 (rel_comb a2 b2 (by simp [hu]) m n)
      have hy : y.reverse.length = y'.reverse.length := by rw [a2.1, b2.1]; simp [hu]
      rw [← List.reverse_reverse z, hr, comb_reverse _ _ _ _ hy, List.reverse_reverse, List.reverse_reverse]
  | baseflow al np zero input =>
    have hm' := (filter_some hf h').2.2
    have hms := (filter_some hf hs).2.2
    obtain rfl : zero = false := by rw [← hz]; exact hf.2.2.2.2.2.2.2.2.2.2.2.1.symm
    obtain rfl : input = false := by rw [← hn]; exact hf.2.2.2.2.2.2.2.2.2.2.2.2.symm
    simp only [clip, Bool.false_eq_true, if_false, Option.some.injEq] at hm hm' hms
    subst hm hm' hms
    rcases asks_passes hf with rfl | rfl
    · exact quick_unique (basePasses_spec al _ (by omega)).1
        (quick_comb (basePasses_spec al x (by omega)).1 (basePasses_spec al x' (by omega)).1 hx m n)
    · obtain ⟨q1, q2, a1, a2, a3⟩ := (basePasses_spec al x (by omega)).2
      obtain ⟨r1, r2, b1, b2, b3⟩ := (basePasses_spec al x' (by omega)).2
      obtain ⟨t1, t2, c1, c2, c3⟩ := (basePasses_spec al (comb m n x x') (by omega)).2
      obtain rfl := quick_unique c1 (quick_comb a1 b1 hx m n)
      have e1 : q1.length = r1.length := by rw [a1.1, b1.1, hx]
      rw [comb_reverse _ _ _ _ e1] at c2
      obtain rfl := quick_unique c2 (quick_comb a2 b2 (by simp [e1]) m n)
      have e2 : q2.length = r2.length := by rw [a2.1, b2.1]; simp [e1]
      rw [comb_reverse _ _ _ _ e2] at c3
      exact quick_unique c3 (quick_comb a3 b3 (by simp [e2]) m n)

private theorem clip_take (zero input : Bool) (x y : List K) (j : Nat) : (clip zero input x y).take j = clip zero input (x.take j) (y.take j) := by
  cases zero <;> cases input <;> simp [clip, List.map_take, List.take_zipWith]

/-- Without reversal and with one pass, a filter looks only back: two series that agree up to a term (the second one or later) are the same
up to this term when filtered. -/
theorem C137_causal [IsStrictOrderedRing K] (tr : Trig K) (b : FilterBlock K) (cs : List Clock) (x x' y y' : List K) (j : Nat)
    (hl : cs.length = x.length) (hl' : cs.length = x'.length) (hc : ∀ c ∈ cs, c.Proper) (hi : cs.Pairwise fun p q => p.time < q.time)
    (hr : b.reverse = false) (hp : b.passes ≠ some 3) (h : digitalFilter tr b cs x = some y) (h' : digitalFilter tr b cs x' = some y')
    (hj : 2 ≤ j) (hx : x.take j = x'.take j) : y.take j = y'.take j := by
  obtain ⟨f, hf, -⟩ := Option.bind_eq_some_iff.mp h
  rw [C137_checks] at hf
  obtain ⟨h20, hgap, hm⟩ := filter_some hf h
  obtain ⟨s1, s2, -⟩ := spaced hc hi (by omega)
  have hd := s2.mp hgap
  cases f with
  | butterworth p ns f1 f2 rev =>
    obtain rfl : rev = false := by
      cases p with
      | band => exact hf.2.2.2.2.2.2.2.2.2.2.2.1
      | low => rw [← hr]; exact hf.2.2.2.2.2.2.2.2.2.2.1.symm
      | high => rw [← hr]; exact hf.2.2.2.2.2.2.2.2.2.2.1.symm
    have a := stages_take (C137_stages tr b cs x y p ns f1 f2 _ hl hc hi hd hf h) j (by omega)
    have a' := stages_take (C137_stages tr b cs x' y' p ns f1 f2 _ hl' hc hi hd hf h') j (by omega)
    rw [hx] at a
    exact stages_unique a a'
  | baseflow al np zero input =>
    have hm' := (filter_some hf h').2.2
    simp only [Option.some.injEq] at hm hm'
    obtain rfl : np = 1 := by
      rcases asks_passes hf with rfl | rfl
      · rfl
      · rcases hf.2.2.2.2.2.2.2.2.2.1 with h | h
        · exact absurd h hp
        · exact absurd h.2 (by omega)
    have a := quick_take (basePasses_spec al x (by omega)).1 j hj
    have a' := quick_take (basePasses_spec al x' (by omega)).1 j hj
    rw [hx] at a
    rw [← hm, ← hm', clip_take, clip_take, quick_unique a a', hx]

/-- Stages of low and high pass are stable: once the input is constant, the output goes to this constant (low pass) or to zero (high pass)
at a geometric rate, which depends on the stage only, and not on the series. -/
theorem C137_settles [IsStrictOrderedRing K] (tr : Trig K) (hg : tr.Good) (p : FPass) (hp : p ≠ .band) (ns : Nat) (f t : K)
    (h0 : 0 < f * t) (h1 : f * t < 1 / 2) (k : Coef K) (hk : k ∈ coefs tr p ns f f t) :
    ∃ r C : K, 0 < r ∧ r < 1 ∧ 0 < C ∧ ∀ (x y : List K) (u : K) (m : Nat), IsStage p k x y →
      (∀ i, m ≤ i → i < x.length → x.getD i 0 = u) →
      ∀ n, m + n + 1 < x.length →
        let v := if p = .low then u else 0
        (y.getD (m + n + 1) 0 - v) ^ 2 ≤ C * r ^ n * ((y.getD (m + 1) 0 - v) ^ 2 + (y.getD m 0 - v) ^ 2) := by
  obtain ⟨i, hi, hki⟩ := List.mem_map.mp hk
  rw [List.mem_range] at hi
  obtain ⟨a1, a2⟩ := angle (K := K) hi
  obtain ⟨c1, c2⟩ := hg.2 _ a1 a2
  have hw := hg.1 _ h0 h1
  have hk' : k = lowCoef (tr.tanPi (f * t)) (stageCos tr ns (i + 1)) ∨ k = highCoef (tr.tanPi (f * t)) (stageCos tr ns (i + 1)) := by
    cases p with
    | band => exact absurd rfl hp
    | low => exact Or.inl hki.symm
    | high => exact Or.inr hki.symm
  obtain ⟨b1, b2, b3⟩ := coef_bounds (w := tr.tanPi (f * t)) (cs := stageCos tr ns (i + 1)) hw c1 c2 hk'
  refine ⟨k.c, 8 * k.c / (4 * k.c - k.b ^ 2), b1, b2, div_pos (by linarith) (by linarith), fun x y u m hs hu n hn => ?_⟩
  have gx : ∀ (v : K) (q : Nat) (l : List K), padded v l (((q + 2 : Nat) : Int) + 1) = l.getD (q + 2) 0 ∧
      padded v l (((q + 2 : Nat) : Int) + 1 - 1) = l.getD (q + 1) 0 ∧ padded v l (((q + 2 : Nat) : Int) + 1 - 2) = l.getD q 0 := by
    intro v q l
    refine ⟨padded_nat v l _, ?_, ?_⟩
    · rw [show ((q + 2 : Nat) : Int) + 1 - 1 = ((q + 1 : Nat) : Int) + 1 by omega, padded_nat]
    · rw [show ((q + 2 : Nat) : Int) + 1 - 2 = ((q : Nat) : Int) + 1 by omega, padded_nat]
  simp only
  have key : ∀ q < n, y.getD (m + (q + 2)) 0 - (if p = .low then u else 0) =
      -k.b * (y.getD (m + (q + 1)) 0 - (if p = .low then u else 0)) - k.c * (y.getD (m + q) 0 - (if p = .low then u else 0)) := by
    intro q hq
    have := hs.2 (((m + q + 2 : Nat) : Int) + 1) (by omega) (by omega)
    simp only at this
    have u0 := hu (m + q + 2) (by omega) (by omega)
    have u1 := hu (m + q + 1) (by omega) (by omega)
    have u2 := hu (m + q) (by omega) (by omega)
    cases p with
    | band => exact absurd rfl hp
    | low =>
      simp only [(gx _ _ _).1, (gx _ _ _).2.1, (gx _ _ _).2.2, u0, u1, u2] at this
      have hgain : 1 + k.b + k.c = 4 * k.a := by
        rw [← hki]
        exact low_gain hw c2
      rw [if_pos rfl, show m + (q + 2) = m + q + 2 by omega, show m + (q + 1) = m + q + 1 by omega]
      linear_combination this - u * hgain
    | high =>
      simp only [(gx _ _ _).1, (gx _ _ _).2.1, (gx _ _ _).2.2, u0, u1, u2] at this
      rw [if_neg (by simp), show m + (q + 2) = m + q + 2 by omega, show m + (q + 1) = m + q + 1 by omega]
      linear_combination this
  exact settle_bound b1 b2 b3 (fun q => y.getD (m + q) 0 - (if p = .low then u else 0)) n key n le_rfl

/-- Tangents and cosines of real numbers. -/
noncomputable def realTrig : Trig ℝ := ⟨fun u => Real.tan (Real.pi * u), fun u => Real.cos (Real.pi * u)⟩

/-- What the theorems suppose about tangents and cosines is true of those of real numbers. -/
theorem C137_real : realTrig.Good := by
  have hp := Real.pi_pos
  refine ⟨fun u h0 h1 => Real.tan_pos_of_pos_of_lt_pi_div_two (mul_pos hp h0) (by nlinarith), fun u h0 h1 => ⟨?_, ?_⟩⟩
  · have := Real.cos_lt_cos_of_nonneg_of_le_pi (x := Real.pi * u) (y := Real.pi) (by nlinarith) le_rfl (by nlinarith)
    rw [Real.cos_pi] at this
    exact this
  · exact Real.cos_neg_of_pi_div_two_lt_of_lt (by nlinarith) (by nlinarith)

/-! ### Separation of baseflow -/

/-- The new series is the quick part of the flow, after one pass or after passes forward, backward and forward, and clipped as asked for. -/
theorem C137_quick [IsStrictOrderedRing K] (tr : Trig K) (b : FilterBlock K) (cs : List Clock) (x y : List K) (al : K) (n : Nat)
    (zero input : Bool) (hb : Asks b (.baseflow al n zero input)) (h : digitalFilter tr b cs x = some y) :
    ∃ q, ((n = 1 ∧ IsQuick al x q) ∨ (n = 3 ∧ ∃ q1 q2, IsQuick al x q1 ∧ IsQuick al q1.reverse q2 ∧ IsQuick al q2.reverse q)) ∧
      y.length = x.length ∧ ∀ i < x.length,
        let v := if zero then max (q.getD i 0) 0 else q.getD i 0
        y.getD i 0 = if input then min v (x.getD i 0) else v := by
  obtain ⟨h20, -, hm⟩ := filter_some hb h
  simp only [Option.some.injEq] at hm
  have hs := basePasses_spec al x (by omega)
  have hq : (n = 1 ∧ IsQuick al x (basePasses al x n)) ∨
      (n = 3 ∧ ∃ q1 q2, IsQuick al x q1 ∧ IsQuick al q1.reverse q2 ∧ IsQuick al q2.reverse (basePasses al x n)) := by
    rcases asks_passes hb with rfl | rfl
    · exact Or.inl ⟨rfl, hs.1⟩
    · exact Or.inr ⟨rfl, hs.2⟩
  have hlen : (basePasses al x n).length = x.length := by
    rcases hq with ⟨-, h⟩ | ⟨-, q1, q2, h1, h2, h3⟩
    · exact h.1
    · rw [h3.1, List.length_reverse, h2.1, List.length_reverse, h1.1]
  refine ⟨_, hq, ?_, fun i hi => ?_⟩
  · rw [← hm]
    cases zero <;> cases input <;> simp [clip, hlen]
  · rw [← hm]
    simp only
    have e : ∀ a : K, (if a < 0 then 0 else a) = max a 0 := by
      intro a
      rcases lt_or_ge a 0 with h | h
      · rw [if_pos h, max_eq_right h.le]
      · rw [if_neg (not_lt.mpr h), max_eq_left h]
    have e2 : ∀ a c : K, (if a > c then c else a) = min a c := by
      intro a c
      rcases lt_or_ge c a with h | h
      · rw [if_pos h, min_eq_right h.le]
      · rw [if_neg (not_lt.mpr h), min_eq_left h]
    have gq := List.getD_eq_getElem (basePasses al x n) 0 (by omega : i < _)
    have gx := List.getD_eq_getElem x 0 hi
    rw [gq, gx]
    cases zero <;> cases input <;> simp only [clip, Bool.false_eq_true, if_false, if_true]
    · exact gq
    · rw [List.getD_eq_getElem _ _ (by rw [List.length_zipWith]; omega), List.getElem_zipWith, e2]
    · rw [List.getD_eq_getElem _ _ (by rw [List.length_map]; omega), List.getElem_map, e]
    · rw [List.getD_eq_getElem _ _ (by rw [List.length_zipWith, List.length_map]; omega), List.getElem_zipWith, List.getElem_map, e, e2]

/-- With both clippings the quick part of a flow that is not negative is between zero and the flow, and so is the rest. -/
theorem C137_clip [IsStrictOrderedRing K] (tr : Trig K) (b : FilterBlock K) (cs : List Clock) (x y : List K) (al : K) (n : Nat)
    (hb : Asks b (.baseflow al n true true)) (h : digitalFilter tr b cs x = some y) (i : Nat) (hi : i < x.length)
    (hx : 0 ≤ x.getD i 0) : 0 ≤ y.getD i 0 ∧ y.getD i 0 ≤ x.getD i 0 ∧ 0 ≤ x.getD i 0 - y.getD i 0 ∧ x.getD i 0 - y.getD i 0 ≤ x.getD i 0 := by
  obtain ⟨q, -, -, hv⟩ := C137_quick tr b cs x y al n true true hb h
  have := hv i hi
  simp only [if_true] at this
  have h1 : 0 ≤ y.getD i 0 := by rw [this]; exact le_min (le_max_right _ _) hx
  have h2 : y.getD i 0 ≤ x.getD i 0 := by rw [this]; exact min_le_right _ _
  exact ⟨h1, h2, by linarith, by linarith⟩

private theorem quick_constant (al v : K) (n : Nat) (hn : 2 ≤ n) :
    IsQuick al (List.replicate n v) ((List.range n).map fun i => al ^ (i + 1) * v) := by
  refine ⟨by simp, fun j j1 j2 => ?_⟩
  rw [List.length_replicate] at j2
  obtain ⟨i, rfl⟩ : ∃ i : Nat, j = (i : Int) + 1 := ⟨(j - 1).toNat, by omega⟩
  have hv : 2 * (List.replicate n v).getD 0 0 - (List.replicate n v).getD 1 0 = v := by
    rw [List.getD_replicate _ (by omega), List.getD_replicate _ (by omega)]
    ring
  simp only [hv]
  rw [padded_replicate _ _ _ (by omega), padded_replicate _ _ _ (by omega), padded_nat, sub_self, mul_zero, add_zero]
  have g : ∀ i < n, ((List.range n).map fun i => al ^ (i + 1) * v).getD i 0 = al ^ (i + 1) * v := by
    intro i hi
    rw [List.getD_eq_getElem _ _ (by simpa using hi)]
    simp
  rw [g i (by omega)]
  cases i with
  | zero => simp [padded]
  | succ i =>
    rw [show ((i + 1 : Nat) : Int) + 1 - 1 = (i : Int) + 1 by omega, padded_nat, g i (by omega)]
    ring

/-- VIOLATED: "a constant flow has no quick part".  The quick part starts with the flow itself and only fades as the powers of ALPHA. -/
theorem C137_quick_constant_violated [IsStrictOrderedRing K] (tr : Trig K) (b : FilterBlock K) (cs : List Clock) (n : Nat) (v : K)
    (y : List K) (al : K) (hb : Asks b (.baseflow al 1 false false)) (h : digitalFilter tr b cs (List.replicate n v) = some y) :
    ∀ i < n, y.getD i 0 = al ^ (i + 1) * v := by
  obtain ⟨h20, -, -⟩ := filter_some hb h
  rw [List.length_replicate] at h20
  obtain ⟨q, hq, -, hy⟩ := C137_quick tr b cs _ y al 1 false false hb h
  rcases hq with ⟨-, hq⟩ | ⟨h3, -⟩
  · obtain rfl := quick_unique hq (quick_constant al v n (by omega))
    intro i hi
    have := hy i (by simpa using hi)
    simp only [Bool.false_eq_true, if_false] at this
    rw [this, List.getD_eq_getElem _ _ (by simpa using hi)]
    simp
  · omega

/-- VIOLATED: "part of a constant flow is baseflow".  ALPHA of one and more is accepted; then all of a constant flow is quick, even with
clipping. -/
theorem C137_alpha_violated [IsStrictOrderedRing K] (tr : Trig K) (b : FilterBlock K) (cs : List Clock) (n : Nat) (v : K) (hv : 0 ≤ v)
    (y : List K) (al : K) (hal : 1 ≤ al) (hb : Asks b (.baseflow al 1 true true))
    (h : digitalFilter tr b cs (List.replicate n v) = some y) : y = List.replicate n v := by
  obtain ⟨h20, -, -⟩ := filter_some hb h
  rw [List.length_replicate] at h20
  obtain ⟨q, hq, hl, hy⟩ := C137_quick tr b cs _ y al 1 true true hb h
  rcases hq with ⟨-, hq⟩ | ⟨h3, -⟩
  · obtain rfl := quick_unique hq (quick_constant al v n (by omega))
    rw [List.length_replicate] at hl
    apply List.ext_getElem
    · simp [hl]
    · intro i i1 i2
      have := hy i (by simpa using i2)
      simp only [if_true] at this
      rw [List.getD_eq_getElem _ _ i1, List.getD_replicate _ (by omega), List.getD_eq_getElem _ _ (by simpa using (by omega : i < n))] at this
      rw [this, List.getElem_replicate, List.getElem_map, List.getElem_range]
      have hge : v ≤ al ^ (i + 1) * v := le_mul_of_one_le_left hv (one_le_pow₀ hal)
      rw [max_eq_left (hv.trans hge), min_eq_right hge]
  · omega

/-! ### Cases -/

/-- Tangents and cosines for the examples. -/
private def someTrig : Trig ℚ := ⟨fun u => u, fun _ => -1 / 2⟩

private theorem someTrig_good : someTrig.Good :=
  ⟨fun _ h _ => h, fun _ _ _ => ⟨by norm_num [someTrig], by norm_num [someTrig]⟩⟩

private def daily : List Clock := (List.range 21).map fun (i : Nat) => ⟨i, 43200⟩

private def someFlow : List ℚ := [5, 4, 9, 7, 5, 4, 3, 3, 2, 2, 8, 6, 5, 4, 4, 3, 3, 3, 2, 2, 2]

example : daily.length = someFlow.length ∧ (∀ c ∈ daily, c.Proper) ∧ daily.Pairwise (fun p q => p.time < q.time) ∧
    EquallySpaced 86400 daily := by
  refine ⟨by decide +kernel, ?_, ?_, ?_⟩
  · unfold Clock.Proper; decide +kernel
  · decide +kernel
  · intro i h
    have h' : i + 1 < 21 := h
    simp only [daily, List.getElem_map, List.getElem_range, Clock.time]
    omega

private def lowBlock : FilterBlock ℚ := { type := some .butterworth, pass := some .low, stages := some 2, freq := some (1 / 10) }
private def backBlock : FilterBlock ℚ := { lowBlock with reverse := true }
private def bandBlock : FilterBlock ℚ :=
  { type := some .butterworth, pass := some .band, stages := some 2, freq1 := some (1 / 10), freq2 := some (1 / 5) }
private def baseBlock (c : Bool) : FilterBlock ℚ :=
  { type := some .baseflow, alpha := some (9 / 10), passes := some 3, clipZero := c, clipInput := c }

example : Asks lowBlock (.butterworth .low 2 (1 / 10) (1 / 10) false) := by simp [Asks, lowBlock]
example : Asks backBlock (.butterworth .low 2 (1 / 10) (1 / 10) true) := by simp [Asks, backBlock, lowBlock]
example : Asks bandBlock (.butterworth .band 2 (1 / 10) (1 / 5) false) := by simp [Asks, bandBlock]; norm_num
example : Asks (baseBlock true) (.baseflow (9 / 10) 3 true true) := by simp [Asks, baseBlock]
example : (digitalFilter someTrig lowBlock daily someFlow).isSome = true := by decide +kernel
example : (digitalFilter someTrig backBlock daily someFlow).isSome = true := by decide +kernel
example : (digitalFilter someTrig bandBlock daily someFlow).isSome = true := by decide +kernel
example : (digitalFilter someTrig (baseBlock true) daily someFlow).isSome = true := by decide +kernel
example : digitalFilter someTrig lowBlock daily (List.replicate 21 3) = some (List.replicate 21 3) := by decide +kernel
example : (digitalFilter someTrig { type := some .baseflow, alpha := some (9 / 10) } daily (List.replicate 21 10)).map (·.take 2) =
    some [9, 81 / 10] := by decide +kernel
example : digitalFilter someTrig { type := some .baseflow, alpha := some 2, clipZero := true, clipInput := true } daily
    (List.replicate 21 10) = some (List.replicate 21 10) := by decide +kernel
/-- A frequency above half of the sampling frequency. -/
example : digitalFilter someTrig { lowBlock with freq := some (1 / 2) } daily someFlow = none := by decide +kernel
/-- The tests leave no filter. -/
example : filterChecks { lowBlock with alpha := some (9 / 10) } = none ∧ filterChecks { lowBlock with stages := some 4 } = none := by
  decide +kernel

end Verif.Tsp
