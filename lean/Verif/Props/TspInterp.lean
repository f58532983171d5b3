import Verif.Lemmas.TspInterp3
import Verif.Lemmas.TspInterp4
/-
C128: volumes of TSPROC.  C129: interpolation to the times of another series.  C130: durations of flows over and under thresholds.
-/
namespace Verif.Tsp

/-- The volume of a period within the series is the area under the broken line. -/
theorem C128_volume (s : List Term) (ho : Ordered s) (h2 : 2 ≤ s.length) (b f : Clock) (hb : b.Proper) (hf : f.Proper)
    (h1 : ∀ p ∈ s.head?, p.t ≤ b.time) (hbf : b.time ≤ f.time) (hl : ∀ p ∈ s.getLast?, (f.time : Rat) ≤ p.t) (fac : Rat) :
    volume s b f fac = some (area b.time f.time s * fac / 86400) := volume_spec ho h2 hb hf h1 hbf hl fac

/-- The volumes of two adjoining periods add up. -/
theorem C128_additive (s : List Term) (ho : Ordered s) (h2 : 2 ≤ s.length) (b m f : Clock) (hb : b.Proper) (hm : m.Proper) (hf : f.Proper)
    (h1 : ∀ p ∈ s.head?, p.t ≤ b.time) (hbm : b.time ≤ m.time) (hmf : m.time ≤ f.time) (hl : ∀ p ∈ s.getLast?, (f.time : Rat) ≤ p.t)
    (fac : Rat) : ∃ v w, volume s b m fac = some v ∧ volume s m f fac = some w ∧ volume s b f fac = some (v + w) := by
  have hbm' : (b.time : Rat) ≤ m.time := by exact_mod_cast hbm
  have hmf' : (m.time : Rat) ≤ f.time := by exact_mod_cast hmf
  refine ⟨_, _, volume_spec ho h2 hb hm h1 hbm (fun p hp => le_trans hmf' (hl p hp)) fac,
    volume_spec ho h2 hm hf (fun p hp => le_trans (h1 p hp) hbm') hmf hl fac, ?_⟩
  rw [volume_spec ho h2 hb hf h1 (le_trans hbm hmf) hl fac, ← area_add hbm' hmf' s ho]
  congr 1; ring

/-- A volume is between those of the least and of the greatest flow; with flows of one value it is that of the value. -/
theorem C128_bounds (s : List Term) (ho : Ordered s) (h2 : 2 ≤ s.length) (b f : Clock) (hb : b.Proper) (hf : f.Proper)
    (h1 : ∀ p ∈ s.head?, p.t ≤ b.time) (hbf : b.time ≤ f.time) (hl : ∀ p ∈ s.getLast?, (f.time : Rat) ≤ p.t) (fac : Rat) (h0 : 0 ≤ fac)
    (lo hi : Rat) (hv : ∀ p ∈ s, lo ≤ p.val ∧ p.val ≤ hi) :
    ∃ v, volume s b f fac = some v ∧ lo * ((f.time : Rat) - b.time) * fac / 86400 ≤ v ∧
      v ≤ hi * ((f.time : Rat) - b.time) * fac / 86400 := by
  have hbf' : (b.time : Rat) ≤ f.time := by exact_mod_cast hbf
  have hne : s ≠ [] := by rintro rfl; simp at h2
  obtain ⟨a1, a2⟩ := area_bounds hbf' s ho hv h1 hl hne
  refine ⟨_, volume_spec ho h2 hb hf h1 hbf hl fac, ?_, ?_⟩
  · exact div_le_div_of_nonneg_right (mul_le_mul_of_nonneg_right a1 h0) (by norm_num)
  · exact div_le_div_of_nonneg_right (mul_le_mul_of_nonneg_right a2 h0) (by norm_num)

theorem volLast_none {f : Clock} (hf : f.Proper) : ∀ (r : List Term) (p q : Term) (first : Bool) (vm : Rat), Ordered (p :: q :: r) →
    (∀ t ∈ (q :: r).getLast?, t.t < f.time) → volLast f first vm p q r = none
  | [], p, q, first, vm, ho, hl => by
    rw [volLast, if_pos]
    exact (later_t hf (ho.2 q (by simp))).2 (hl q rfl)
  | q' :: r, p, q, first, vm, ho, hl => by
    have hq : q.t < f.time := by
      have h1 := last_ge ho.tail.tail
      have h2 := ho.tail.lt
      obtain ⟨t, ht⟩ : ∃ t, t ∈ (q' :: r).getLast? := ⟨_, List.getLast?_eq_some_getLast (by simp)⟩
      have := h1 t ht
      have := hl t (by rw [List.getLast?_cons_cons]; exact ht)
      linarith
    rw [volLast, if_pos ((later_t hf (ho.2 q (by simp))).2 hq)]
    exact volLast_none hf r q q' false _ ho.tail (by rwa [List.getLast?_cons_cons] at hl)

/-- A period found by the program that ends on the day of the last term has a number for its volume that is none: the day is not over
at the last term. -/
theorem C128_last_violated (s : List Term) (ho : Ordered s) (h2 : 2 ≤ s.length) (t : Term) (ht : s.getLast? = some t)
    (hs : t.at_.secs < 86399) (d : Int) (h1 : ∀ p ∈ s.head?, p.at_.time ≤ d * 86400) (hd : d ≤ t.at_.days) (fac factor : Rat) :
    autoVolumes [(d, t.at_.days)] s fac factor = [(⟨d, 0⟩, ⟨t.at_.days, 86399⟩, some (-31 * 10 ^ 36 * factor))] := by
  unfold autoVolumes
  simp only [List.map_cons, List.map_nil]
  obtain ⟨p0, s0, rfl⟩ : ∃ p0 s0, s = p0 :: s0 := by
    cases s with
    | nil => simp at h2
    | cons p s => exact ⟨p, s, rfl⟩
  have hs0 : s0 ≠ [] := by rintro rfl; simp at h2
  have hbp : (⟨d, 0⟩ : Clock).Proper := by constructor <;> simp
  have hfp : (⟨t.at_.days, 86399⟩ : Clock).Proper := by constructor <;> simp
  have htp := ho.2 t (List.mem_of_getLast? ht)
  have hb : p0.t ≤ ((⟨d, 0⟩ : Clock).time : Rat) := by
    have := h1 p0 rfl
    unfold Term.t
    have h : p0.at_.time ≤ (⟨d, 0⟩ : Clock).time := by unfold Clock.time at *; simpa using this
    exact_mod_cast h
  have htl : (p0 :: s0).getLast (by simp) = t := by
    rw [List.getLast?_eq_some_getLast (by simp)] at ht
    exact Option.some.inj ht
  have hbt : ((⟨d, 0⟩ : Clock).time : Rat) ≤ ((p0 :: s0).getLast (by simp)).t := by
    rw [htl]
    unfold Term.t
    have h : (⟨d, 0⟩ : Clock).time ≤ t.at_.time := by
      unfold Clock.time
      have := htp.1
      simp only
      omega
    exact_mod_cast h
  have htf : t.t < ((⟨t.at_.days, 86399⟩ : Clock).time : Rat) := by
    unfold Term.t
    have h : t.at_.time < (⟨t.at_.days, 86399⟩ : Clock).time := by unfold Clock.time; simp only; omega
    exact_mod_cast h
  obtain ⟨A, p, q, r, e, v1, hpb, hbq, ha⟩ := volFirst_spec hbp 0 p0 s0 ho hb hbt hs0
  have ho' : Ordered (p :: q :: r) := by rw [e] at ho; exact ho.append
  have hlast : ∀ x ∈ (q :: r).getLast?, x.t < ((⟨t.at_.days, 86399⟩ : Clock).time : Rat) := by
    intro x hx
    have : (p0 :: s0).getLast? = (q :: r).getLast? := by
      rw [e, List.getLast?_append_of_ne_nil _ (by simp), List.getLast?_cons_cons]
    rw [← this, ht] at hx
    cases hx
    exact htf
  have hpq := ho'.lt
  have hvol : volume (p0 :: s0) ⟨d, 0⟩ ⟨t.at_.days, 86399⟩ fac = some (-31 * 10 ^ 36) := by
    unfold volume
    rw [v1]
    simp only
    rw [if_neg (by rw [gap_eq]; change ¬ q.t - p.t ≤ 0; linarith), volLast_none hfp r p q true 0 ho' hlast]
  rw [hvol]
  rfl

/-- Two adjoining periods found by the program do not adjoin: the last second of the first one is lost. -/
theorem C128_second_violated (s : List Term) (ho : Ordered s) (h2 : 2 ≤ s.length) (d1 d2 d3 : Int) (h12 : d1 ≤ d2) (h23 : d2 < d3)
    (h1 : ∀ p ∈ s.head?, p.at_.time ≤ d1 * 86400) (hl : ∀ p ∈ s.getLast?, d3 * 86400 + 86399 ≤ p.at_.time) :
    ∃ v w all, autoVolumes [(d1, d2), (d2 + 1, d3)] s 1 1 = [(⟨d1, 0⟩, ⟨d2, 86399⟩, some v), (⟨d2 + 1, 0⟩, ⟨d3, 86399⟩, some w)] ∧
      volume s ⟨d1, 0⟩ ⟨d3, 86399⟩ 1 = some all ∧
      all - (v + w) = area (d2 * 86400 + 86399) ((d2 + 1) * 86400) s / 86400 := by
  have P : ∀ d x : Int, 0 ≤ x → x < 86400 → (⟨d, x⟩ : Clock).Proper := fun d x a b => ⟨a, b⟩
  have T : ∀ d x : Int, (((⟨d, x⟩ : Clock).time : Int) : Rat) = d * 86400 + x := by intro d x; unfold Clock.time; push_cast; rfl
  have c12 : (d1 : Rat) ≤ d2 := by exact_mod_cast h12
  have c23 : (d2 : Rat) + 1 ≤ d3 := by exact_mod_cast h23
  have hh : ∀ d : Rat, (d1 : Rat) ≤ d → ∀ p ∈ s.head?, p.t ≤ d * 86400 := by
    intro d hd p hp
    have := h1 p hp
    unfold Term.t
    have : (p.at_.time : Rat) ≤ d1 * 86400 := by exact_mod_cast this
    linarith
  have hll : ∀ p ∈ s.getLast?, (d3 : Rat) * 86400 + 86399 ≤ p.t := by
    intro p hp
    have := hl p hp
    unfold Term.t
    exact_mod_cast this
  have v1 := volume_spec ho h2 (P d1 0 (by norm_num) (by norm_num)) (P d2 86399 (by norm_num) (by norm_num))
    (by intro p hp; rw [T]; push_cast; have := hh d1 (le_refl _) p hp; linarith)
    (by unfold Clock.time; simp only; omega) (by intro p hp; rw [T]; push_cast; have := hll p hp; linarith) 1
  have v2 := volume_spec ho h2 (P (d2 + 1) 0 (by norm_num) (by norm_num)) (P d3 86399 (by norm_num) (by norm_num))
    (by intro p hp; rw [T]; push_cast; have := hh d1 (le_refl _) p hp; linarith)
    (by unfold Clock.time; simp only; omega) (by intro p hp; rw [T]; push_cast; have := hll p hp; linarith) 1
  have v3 := volume_spec ho h2 (P d1 0 (by norm_num) (by norm_num)) (P d3 86399 (by norm_num) (by norm_num))
    (by intro p hp; rw [T]; push_cast; have := hh d1 (le_refl _) p hp; linarith)
    (by unfold Clock.time; simp only; omega) (by intro p hp; rw [T]; push_cast; have := hll p hp; linarith) 1
  unfold autoVolumes
  simp only [List.map_cons, List.map_nil, v1, v2, Option.map_some]
  refine ⟨_, _, _, rfl, v3, ?_⟩
  rw [T, T, T, T]
  push_cast
  have a1 := area_add (b := (d1 : Rat) * 86400 + 0) (m := d2 * 86400 + 86399) (f := (d2 + 1) * 86400) (by linarith) (by linarith) s ho
  have a2 := area_add (b := (d1 : Rat) * 86400 + 0) (m := (d2 + 1) * 86400) (f := d3 * 86400 + 86399) (by linarith) (by linarith) s ho
  rw [← a2, ← a1, add_zero, add_zero]
  ring

/-- The months of the program: each month with 25 terms or more is a period from its first to its last term; and nothing else is. -/
theorem C128_months (ds : List Int) (hr : ∀ d ∈ ds, -2147483648 ≤ d ∧ d ≤ 2147483647) (x : Int × Int) :
    x ∈ monthly ds ↔ ∃ y ∈ yearsOf ds, ∃ m : Int, 1 ≤ m ∧ m ≤ 12 ∧
      25 ≤ (ds.filter fun d => (gregorianDate d 0).year = y ∧ (gregorianDate d 0).month = m).length ∧
      (x.1 ∈ daysIn ds y m ∧ ∀ d ∈ daysIn ds y m, x.1 ≤ d) ∧ (x.2 ∈ daysIn ds y m ∧ ∀ d ∈ daysIn ds y m, d ≤ x.2) := by
  have fmin : ∀ (l : List Int) (a : Int), (l.foldl min a = a ∨ l.foldl min a ∈ l) ∧ l.foldl min a ≤ a ∧ ∀ d ∈ l, l.foldl min a ≤ d := by
    intro l
    induction l with
    | nil => intro a; simp
    | cons b l ih =>
      intro a
      obtain ⟨i1, i2, i3⟩ := ih (min a b)
      rw [List.foldl_cons]
      refine ⟨?_, by omega, ?_⟩
      · rcases i1 with i1 | i1
        · rcases le_total a b with h | h
          · left; rw [i1]; exact min_eq_left h
          · right; rw [i1, min_eq_right h]; simp
        · right; exact List.mem_cons_of_mem _ i1
      · intro d hd
        rcases List.mem_cons.1 hd with rfl | hd
        · omega
        · exact i3 d hd
  have fmax : ∀ (l : List Int) (a : Int), (l.foldl max a = a ∨ l.foldl max a ∈ l) ∧ a ≤ l.foldl max a ∧ ∀ d ∈ l, d ≤ l.foldl max a := by
    intro l
    induction l with
    | nil => intro a; simp
    | cons b l ih =>
      intro a
      obtain ⟨i1, i2, i3⟩ := ih (max a b)
      rw [List.foldl_cons]
      refine ⟨?_, by omega, ?_⟩
      · rcases i1 with i1 | i1
        · rcases le_total b a with h | h
          · left; rw [i1]; exact max_eq_left h
          · right; rw [i1, max_eq_right h]; simp
        · right; exact List.mem_cons_of_mem _ i1
      · intro d hd
        rcases List.mem_cons.1 hd with rfl | hd
        · omega
        · exact i3 d hd
  have key : ∀ y m, 25 ≤ (daysIn ds y m).length → (minDay (daysIn ds y m) ∈ daysIn ds y m ∧ ∀ d ∈ daysIn ds y m, minDay (daysIn ds y m) ≤ d) ∧
      (maxDay (daysIn ds y m) ∈ daysIn ds y m ∧ ∀ d ∈ daysIn ds y m, d ≤ maxDay (daysIn ds y m)) := by
    intro y m h
    have hb : ∀ d ∈ daysIn ds y m, -2147483648 ≤ d ∧ d ≤ 2147483647 := fun d hd => hr d (List.mem_of_mem_filter hd)
    obtain ⟨d, hd⟩ := List.exists_mem_of_ne_nil (daysIn ds y m) (by intro e; rw [e] at h; simp at h)
    obtain ⟨i1, i2, i3⟩ := fmin (daysIn ds y m) 2147483647
    obtain ⟨j1, j2, j3⟩ := fmax (daysIn ds y m) (-2147483648)
    unfold minDay maxDay
    refine ⟨⟨?_, i3⟩, ?_, j3⟩
    · rcases i1 with i1 | i1
      · have := i3 d hd
        have h' := (hb d hd).2
        rw [i1] at this ⊢
        rwa [show (2147483647 : Int) = d by omega]
      · exact i1
    · rcases j1 with j1 | j1
      · have := j3 d hd
        have h' := (hb d hd).1
        rw [j1] at this ⊢
        rwa [show (-2147483648 : Int) = d by omega]
      · exact j1
  unfold monthly
  rw [List.mem_flatMap]
  refine exists_congr fun y => and_congr_right fun _ => ?_
  rw [List.mem_filterMap]
  constructor
  · rintro ⟨m, hm, h⟩
    have hm' : 1 ≤ m ∧ m ≤ 12 := by
      simp only [List.mem_cons, List.not_mem_nil, or_false] at hm
      omega
    by_cases hc : (daysIn ds y m).length < 25
    · rw [if_pos hc] at h; cases h
    · rw [if_neg hc] at h
      cases h
      have := key y m (by omega)
      exact ⟨m, hm'.1, hm'.2, by unfold daysIn at hc; omega, this⟩
  · rintro ⟨m, hm1, hm2, hc, ⟨a1, a2⟩, a3, a4⟩
    refine ⟨m, by simp only [List.mem_cons, List.not_mem_nil, or_false]; omega, ?_⟩
    have hc' : 25 ≤ (daysIn ds y m).length := hc
    have := key y m hc'
    rw [if_neg (by omega)]
    have e1 : minDay (daysIn ds y m) = x.1 := by have i1 := this.1.2 _ a1; have i2 := a2 _ this.1.1; omega
    have e2 : maxDay (daysIn ds y m) = x.2 := by have i1 := this.2.2 _ a3; have i2 := a4 _ this.2.1; omega
    rw [e1, e2]

/-- Terms are counted, not days: a year of 350 terms or more with none in January begins in the year 5.8 million, and a month is
complete with 25 terms on one day. -/
theorem C128_annual_violated (d : Int) (n : Nat) (hn : 350 ≤ n) (h1 : (gregorianDate d 0).month ≠ 1) (h12 : (gregorianDate d 0).month ≠ 12) :
    annual (List.replicate n d) = [(2147483647, -2147483648)] := by
  have hne : n ≠ 0 := by omega
  unfold annual yearsOf
  rw [List.head?_replicate, List.getLast?_replicate, if_neg hne]
  simp only
  rw [show (gregorianDate d 0).year + 1 - (gregorianDate d 0).year = 1 by ring]
  have e : ∀ m : Int, (gregorianDate d 0).month ≠ m → daysIn (List.replicate n d) (gregorianDate d 0).year m = [] := by
    intro m hm
    unfold daysIn
    rw [List.filter_eq_nil_iff]
    intro x hx
    rw [(List.mem_replicate.1 hx).2]
    simp [hm]
  have f : (List.replicate n d).filter (fun x => decide ((gregorianDate x 0).year = (gregorianDate d 0).year)) = List.replicate n d := by
    rw [List.filter_eq_self]
    intro x hx
    rw [(List.mem_replicate.1 hx).2]
    simp
  simp only [Int.toNat_one, List.range_one, List.map_cons, List.map_nil, Nat.cast_zero, add_zero, List.filterMap_cons, List.filterMap_nil]
  rw [f, List.length_replicate, if_neg (by omega), e 1 h1, e 12 h12]
  rfl

/-- Interpolation to the times of another series, which is within the series: each value is that of the broken line, or none. -/
theorem C129_base (s : List Term) (ho : Ordered s) (hr : ∀ p ∈ s, -2 ^ 31 ≤ p.at_.days ∧ p.at_.days < 2 ^ 31) (base : List Clock)
    (hb : base.Pairwise fun a b => a.time < b.time) (hp : ∀ c ∈ base, c.Proper) (out : List (Clock × Option Rat))
    (h : timeBase s base = some out) :
    out.map Prod.fst = base ∧ ∀ x ∈ out, ∃ v, x.2 = some v ∧ IsAtOrNone s x.1.time v := by
  unfold timeBase at h
  cases hb1 : base.head? with
  | none => rw [hb1] at h; cases h
  | some b1 =>
    cases hb2 : base.getLast? with
    | none => rw [hb1, hb2] at h; cases h
    | some b2 =>
      cases hs1 : s.head? with
      | none => rw [hb1, hb2, hs1] at h; cases h
      | some s1 =>
        cases hs2 : s.getLast? with
        | none => rw [hb1, hb2, hs1, hs2] at h; cases h
        | some s2 =>
          rw [hb1, hb2, hs1, hs2] at h
          simp only at h
          by_cases hc : later s1.at_ b1 = true ∨ later b2 s2.at_ = true
          · rw [if_pos hc] at h; cases h
          · rw [if_neg hc, Option.some.injEq] at h
            subst h
            have hne : s ≠ [] := by rintro rfl; cases hs1
            have pb1 := hp b1 (List.mem_of_head? hb1)
            have pb2 := hp b2 (List.mem_of_getLast? hb2)
            have ps1 := ho.2 s1 (List.mem_of_head? hs1)
            have ps2 := ho.2 s2 (List.mem_of_getLast? hs2)
            rw [later_iff ps1 pb1, later_iff pb2 ps2, not_or, not_lt, not_lt] at hc
            have hfirst : ∀ c ∈ base, b1.time ≤ c.time := by
              intro c hc'
              cases base with
              | nil => cases hb1
              | cons a l =>
                cases hb1
                rcases List.mem_cons.1 hc' with rfl | hc'
                · exact le_refl _
                · exact le_of_lt ((List.pairwise_cons.1 hb).1 c hc')
            have hlast : ∀ c ∈ base, c.time ≤ b2.time := by
              intro c hc'
              obtain ⟨l, rfl⟩ := List.getLast?_eq_some_iff.1 hb2
              rcases List.mem_append.1 hc' with hc' | hc'
              · exact le_of_lt ((List.pairwise_append.1 hb).2.2 c hc' b2 (by simp))
              · rw [List.mem_singleton] at hc'; rw [hc']
            have hB : ∀ p ∈ s, ∀ q ∈ s, q.t - p.t ≤ 86400 * 10 ^ 20 := by
              intro p hp' q hq'
              have a1 := hr p hp'
              have a2 := hr q hq'
              have a3 := ho.2 p hp'
              have a4 := ho.2 q hq'
              have : q.at_.time - p.at_.time ≤ 86400 * 10 ^ 20 := by
                unfold Clock.time Clock.Proper at *
                omega
              unfold Term.t
              exact_mod_cast this
            have hF := baseLoop_spec ho hne hB base 0 (hb.imp fun h => le_of_lt h)
              (by
                intro c hc'
                rw [hs1, hs2]
                refine ⟨fun p hp' => ?_, fun p hp' => ?_⟩
                · cases hp'
                  unfold Term.t
                  exact_mod_cast le_trans hc.1 (hfirst c hc')
                · cases hp'
                  unfold Term.t
                  exact_mod_cast le_trans (hlast c hc') hc.2)
              (by intro c _ p hp'; simp at hp')
            refine ⟨by rw [List.map_fst_zip (le_of_eq hF.length_eq)], ?_⟩
            rintro ⟨c, v⟩ hx
            exact (List.forall₂_iff_zip.1 hF).2 hx

/-- The series is interpolated if it spans the times of the other one, and refused if it does not. -/
theorem C129_span (s : List Term) (ho : Ordered s) (base : List Clock) (hp : ∀ c ∈ base, c.Proper) (s1 s2 : Term) (b1 b2 : Clock)
    (hs1 : s.head? = some s1) (hs2 : s.getLast? = some s2) (hb1 : base.head? = some b1) (hb2 : base.getLast? = some b2) :
    (timeBase s base).isSome = true ↔ s1.at_.time ≤ b1.time ∧ b2.time ≤ s2.at_.time := by
  have pb1 := hp b1 (List.mem_of_head? hb1)
  have pb2 := hp b2 (List.mem_of_getLast? hb2)
  have ps1 := ho.2 s1 (List.mem_of_head? hs1)
  have ps2 := ho.2 s2 (List.mem_of_getLast? hs2)
  unfold timeBase
  rw [hb1, hb2, hs1, hs2]
  simp only
  by_cases hc : later s1.at_ b1 = true ∨ later b2 s2.at_ = true
  · rw [if_pos hc]
    rw [later_iff ps1 pb1, later_iff pb2 ps2] at hc
    simp only [Option.isSome_none, Bool.false_eq_true, false_iff, not_and_or, not_le]
    exact hc
  · rw [if_neg hc]
    rw [later_iff ps1 pb1, later_iff pb2 ps2, not_or, not_lt, not_lt] at hc
    simpa using hc

/-- The broken line has one value at a time. -/
theorem C129_unique (s : List Term) (ho : Ordered s) (x v w : Rat) (h1 : IsAt s x v) (h2 : IsAt s x w) : v = w := by
  induction s with
  | nil =>
    rcases h1 with ⟨p, hp, _⟩ | ⟨A, p, q, B, e, _⟩
    · cases hp
    · simp at e
  | cons p s ih =>
    cases s with
    | nil =>
      have single : ∀ v, IsAt [p] x v → v = p.val := by
        rintro v (⟨t, ht, _, h⟩ | ⟨A, p', q', B, e, _⟩)
        · rw [List.mem_singleton] at ht; rw [h, ht]
        · have := congrArg List.length e; simp at this; omega
      rw [single v h1, single w h2]
    | cons q r =>
      rcases lt_or_ge x q.t with hx | hx
      · rw [(isAt_first ho h1 hx).2, (isAt_first ho h2 hx).2]
      · exact ih ho.tail (isAt_rest ho h1 hx) (isAt_rest ho h2 hx)

/-- The duration over (or under) a threshold is that of the excursions of the broken line, each less the delay, in the unit asked for.
Missing: months (`C130_months_violated`). -/
theorem C130_duration_partial (s : List Term) (ho : Ordered s) (over : Bool) (flow delay : Rat) (hd : 0 ≤ delay) (u : TimeUnit)
    (hu : u ≠ .mths) :
    ∃ E, Excursions over flow s E ∧
      duration s over flow delay u = (E.map fun e => max 0 (e.2 - e.1 - delay * u.seconds)).sum / u.seconds := by
  have hfac : u.fac = 1 / u.seconds := by
    cases u <;> first | exact absurd rfl hu | (unfold TimeUnit.fac TimeUnit.seconds; norm_num)
  have hdel : delay / u.fac = delay * u.seconds := by rw [hfac]; field_simp
  have hx : ∀ x : Rat, x / u.seconds = x * u.fac := by intro x; rw [hfac]; ring
  rw [← hdel]
  simp only [hx]
  cases s with
  | nil =>
    refine ⟨[], ⟨by simp, by simp, by simp, ?_⟩, by simp [duration]⟩
    rintro x v (⟨p, hp, _⟩ | ⟨A, p, q, B, e, _⟩)
    · cases hp
    · simp at e
  | cons p r =>
    have hd' : 0 ≤ delay / u.fac := div_nonneg hd (le_of_lt (fac_pos u))
    obtain ⟨E, h1, h2, h3⟩ := durLoop_spec over flow (delay / u.fac) hd' r p ho
    refine ⟨E, h1, ?_⟩
    unfold duration
    simp only
    cases hon : isOn over flow p.val with
    | true =>
      obtain ⟨hi, E', rfl, h⟩ := h2 hon
      rw [h]
      simp [durSum]
    | false =>
      rw [(h3 hon).2]
      simp [durSum]

/-- The excursions are determined by the series: there is one list of them. -/
theorem C130_unique (s : List Term) (over : Bool) (flow : Rat) (E F : List (Rat × Rat))
    (hE : Excursions over flow s E) (hF : Excursions over flow s F) (hne : s ≠ []) : E = F := by
  refine separated_eq E F hE.1 hF.1 hE.2.1 hF.2.1 fun x => ?_
  have one : ∀ G H : List (Rat × Rat), Excursions over flow s G → Excursions over flow s H → (∃ e ∈ G, e.1 ≤ x ∧ x ≤ e.2) →
      ∃ e ∈ H, e.1 ≤ x ∧ x ≤ e.2 := by
    rintro G H hG hH ⟨e, he, h1, h2⟩
    obtain ⟨v, hv⟩ := isAt_ex s hne x (fun p hp => le_trans ((hG.2.2.1 e he).1 p hp) h1) (fun p hp => le_trans h2 ((hG.2.2.1 e he).2 p hp))
    exact (hH.2.2.2 x v hv).1 ((hG.2.2.2 x v hv).2 ⟨e, he, h1, h2⟩)
  exact ⟨one E F hE hF, one F E hF hE⟩

/-- Without delay, flows are over a lower threshold for longer, and under a higher one. -/
theorem C130_monotone (s : List Term) (ho : Ordered s) (flow flow' : Rat) (h : flow ≤ flow') (u : TimeUnit) :
    duration s true flow' 0 u ≤ duration s true flow 0 u ∧ duration s false flow 0 u ≤ duration s false flow' 0 u := by
  cases s with
  | nil => exact ⟨le_refl _, le_refl _⟩
  | cons p r =>
    rw [duration_zero ho, duration_zero ho, duration_zero ho, duration_zero ho]
    have := lens_mono h r p ho
    exact ⟨mul_le_mul_of_nonneg_right this.1 (le_of_lt (fac_pos u)), mul_le_mul_of_nonneg_right this.2 (le_of_lt (fac_pos u))⟩

/-- Without delay, the times over and under a threshold are the whole time, if the flow does not stay at the threshold. -/
theorem C130_total (s : List Term) (ho : Ordered s) (flow : Rat) (u : TimeUnit)
    (hn : ∀ A a b B, s = A ++ a :: b :: B → ¬ (a.val = flow ∧ b.val = flow)) :
    duration s true flow 0 u + duration s false flow 0 u = totalTime s u := by
  cases s with
  | nil => simp [duration, totalTime]
  | cons p r =>
    rw [duration_zero ho, duration_zero ho, ← add_mul, lens_neg flow r p ho hn]
    unfold totalTime
    rw [List.head?_cons, List.getLast?_eq_some_getLast (by simp)]
    simp only
    rw [gap_eq]
    rfl

/-- A month of a table of durations is a twelfth of 356.25 days: the time in months is 2.5 percent too much. -/
theorem C130_months_violated (s : List Term) (ho : Ordered s) (over : Bool) (flow : Rat) :
    ∃ E, Excursions over flow s E ∧
      duration s over flow 0 .mths = (E.map fun e => max 0 (e.2 - e.1)).sum / TimeUnit.seconds .mths * (487 / 475) := by
  obtain ⟨E, h1, h2⟩ := C130_duration_partial s ho over flow 0 (le_refl _) .secs (by decide)
  refine ⟨E, h1, ?_⟩
  simp only [zero_mul, sub_zero] at h2
  have h3 : duration s over flow 0 .mths = duration s over flow 0 .secs * (TimeUnit.fac .mths) := by
    cases s with
    | nil => simp [duration]
    | cons p r =>
      rw [duration_zero ho, duration_zero ho]
      unfold TimeUnit.fac
      ring
  rw [h3, h2]
  unfold TimeUnit.fac TimeUnit.seconds
  ring

/-- Flows of four days. -/
def flood : List Term := [⟨⟨0, 0⟩, 0⟩, ⟨⟨1, 0⟩, 10⟩, ⟨⟨2, 0⟩, 10⟩, ⟨⟨3, 0⟩, 2⟩, ⟨⟨3, 43200⟩, 8⟩]

example : Ordered flood := ⟨by decide, by unfold flood Clock.Proper; decide⟩
example : volume flood ⟨0, 43200⟩ ⟨2, 43200⟩ 1 = some (71 / 4) := by decide +kernel
example : volume flood ⟨1, 0⟩ ⟨1, 43200⟩ 1 = some 5 := by decide +kernel
example : timeBase flood [⟨0, 43200⟩, ⟨1, 0⟩, ⟨2, 64800⟩, ⟨3, 43200⟩] =
    some [(⟨0, 43200⟩, some 5), (⟨1, 0⟩, some 10), (⟨2, 64800⟩, some 4), (⟨3, 43200⟩, some 8)] := by decide +kernel
example : duration flood true 6 0 .days = 2 / 5 + 1 + 1 / 2 + 1 / 6 ∧ duration flood true 6 1 .days = 9 / 10 ∧
    duration flood false 6 0 .hrs = 24 * (3 / 5 + 1 / 2 + 1 / 3) := by decide +kernel
example : annual (List.replicate 400 90000) = [(2147483647, -2147483648)] :=
  C128_annual_violated 90000 400 (by norm_num) (by decide +kernel) (by decide +kernel)
example : totalTime flood .days = 7 / 2 := by decide +kernel

/-- A month of daily flows of one, with the last day not over at its last term: its volume is a number that is none. -/
theorem C128_last_witness_violated :
    autoVolumes [(0, 29)] ((List.range 30).map fun i => ⟨⟨i, 0⟩, 1⟩) 1 1 = [(⟨0, 0⟩, ⟨29, 86399⟩, some (-31 * 10 ^ 36))] := by decide +kernel

/-- Daily flows at noon: the volume of the first day has the line of the first two flows prolonged backwards, and is negative. -/
theorem C128_first_witness_violated :
    volume [⟨⟨0, 43200⟩, 0⟩, ⟨⟨1, 43200⟩, 8⟩, ⟨⟨2, 43200⟩, 8⟩] ⟨0, 0⟩ ⟨0, 64800⟩ 1 = some (-3 / 4) := by decide +kernel

end Verif.Tsp
