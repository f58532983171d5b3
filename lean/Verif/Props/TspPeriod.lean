import Verif.Lemmas.TspPeriod
import Verif.Props.TspStat
/-
C138: statistics of periods of TSPROC (PERIOD_STATISTICS).
-/
namespace Verif.Tsp

/-- Periods are told apart, the rest of the block: the terms of the period are given. -/
private theorem terms_groups (g : Rat → Option Rat) (sqrt : Rat → Rat) (u : PUnit) (yt : YearType) (ab : Abscissa) (st : PStat) (s : List Term)
    (hu : u ≠ .monthOne) (ho : Ordered s) (hd : ∀ t ∈ s, firstDay ≤ t.at_.days) (hg : Gapless u s)
    (hc : ¬ (u = .year ∧ yt = .waterLow ∧ ab = .centre))
    (hst : (st = .sum ∨ st = .mean ∨ st = .stdDev) ∨ (st ≠ .median ∧ ∀ t ∈ s, g t.val = some t.val ∧ |t.val| ≤ 10 ^ 30))
    (out : List (Clock × Option Rat)) (h : periodTerms g sqrt u yt ab st s = some out) :
    ∃ ns : List Int, ns.Pairwise (· < ·) ∧ (∀ n, n ∈ ns ↔ ∃ t ∈ s, periodNo u yt t.at_.days = n) ∧
      List.Forall₂ (fun n o => IsLabel u yt ab n o.1 ∧ ∃ w v, (s.filter fun t => periodNo u yt t.at_.days = n).mapM (fun t => g t.val) = some w ∧
        o.2 = some v ∧ IsStat sqrt st w v) ns out := by
  cases s with
  | nil => cases h
  | cons t ts =>
    simp only [periodTerms, if_neg hu] at h
    rw [periodLoop] at h
    obtain ⟨r, hr, h⟩ := Option.bind_eq_some_iff.mp h
    rw [if_pos rfl] at h
    have h38 : ∀ x ∈ t :: ts, 38 ≤ x.at_.days := fun x hx => le_trans (by decide) (hd x hx)
    have hch : (t :: ts).IsChain (fun p q => periodKey u yt (gregorianDate p.at_.days 0) = periodKey u yt (gregorianDate q.at_.days 0) ↔
        periodNo u yt p.at_.days = periodNo u yt q.at_.days) := by
      refine List.IsChain.imp_of_mem_imp ?_ hg
      intro p q hp hq hpq
      refine ⟨fun hk => ?_, key_of_no u yt (h38 p hp) (h38 q hq)⟩
      cases u with
      | year =>
        simp only [periodKey] at hk
        rw [yearOf_eq yt _ (C124_onto _ (h38 p hp)).1, yearOf_eq yt _ (C124_onto _ (h38 q hq)).1] at hk
        exact hk
      | monthMany =>
        have := hpq hk
        simp only [periodKey] at hk
        simp only [periodNo]
        rw [this, hk]
      | monthOne => exact absurd rfl hu
      | daily => exact hpq hk
    have hpw : (t :: ts).Pairwise (fun p q => periodNo u yt p.at_.days ≤ periodNo u yt q.at_.days) := by
      refine ho.1.imp_of_mem ?_
      intro p q hp hq hpq
      refine periodNo_mono u hu yt (h38 p hp) ?_
      have h1 := ho.2 p hp
      have h2 := ho.2 q hq
      unfold Clock.Proper at h1 h2
      unfold Clock.time at hpq
      omega
    obtain ⟨g0, gs, v0, os, e1, e2, e3, e4, e5, e6, e7, e8⟩ := loop_spec ts _ _ t out (by simp [Acc.add]) rfl hch hpw h
    have hflat : t :: ts = ((t :: g0) :: gs).flatten := by rw [e1]; rfl
    have hmem : ∀ l ∈ (t :: g0) :: gs, ∀ x ∈ l, x ∈ t :: ts := by
      intro l hl x hx
      rw [hflat]
      exact List.mem_flatten.mpr ⟨l, hl, hx⟩
    have hlab : ∀ x ∈ t :: ts, IsLabel u yt ab (periodNo u yt x.at_.days) (periodLabel u yt ab (gregorianDate x.at_.days 0)) := by
      intro x hx
      cases u with
      | year => exact year_label yt ab (fun h => hc ⟨rfl, h⟩) _ (hd x hx)
      | monthMany => exact month_label yt ab _ (hd x hx)
      | monthOne => exact absurd rfl hu
      | daily => exact daily_label yt ab _ (hd x hx)
    have hno0 : ∀ x ∈ t :: g0, periodNo u yt x.at_.days = periodNo u yt t.at_.days := by
      intro x hx
      rcases List.mem_cons.mp hx with rfl | hx
      · rfl
      · exact e2 x hx
    have hall : List.Forall₂ (fun l o => (∀ x ∈ l, IsLabel u yt ab (periodNo u yt x.at_.days) o.1) ∧ ∃ w v, vals g l = some w ∧ o.2 = some v ∧
        IsStat sqrt st w v) ((t :: g0) :: gs) out := by
      rw [e7]
      refine .cons ⟨?_, ?_⟩ ?_
      · intro x hx
        rw [hno0 x hx]
        exact hlab t (by simp)
      · obtain ⟨w, hw, hi⟩ := empty_stat (sqrt := sqrt) (st := st) (r := r) (l := v0) (by
          rcases hst with (h | h | h) | h
          · exact Or.inl h
          · exact Or.inr (Or.inl h)
          · exact Or.inr (Or.inr (Or.inl h))
          · have := h.2 t (by simp)
            rw [hr, Option.some.injEq] at this
            exact Or.inr (Or.inr (Or.inr ⟨h.1, by rw [this.1]; exact this.2⟩)))
        exact ⟨r :: v0, w, vals_cons hr e6, hw, hi⟩
      · have : List.Forall₂ (fun l o => l ∈ gs ∧ Told g (fun c a => (periodLabel u yt ab c, statValue sqrt st a)) l o) gs os :=
          forall₂_mem e8
        refine this.imp ?_
        rintro l o ⟨hl, x, xs, r', v, rfl, hr', hv, rfl⟩
        refine ⟨?_, ?_⟩
        · intro y hy
          rw [e5 _ hl y hy x (by simp)]
          exact hlab x (hmem (x :: xs) (List.mem_cons_of_mem _ hl) x (by simp))
        · obtain ⟨w, hw, hi⟩ := restart_stat (sqrt := sqrt) (st := st) (r := r') (v := x.val) (l := v) (by
            rcases hst with (h | h | h) | h
            · exact Or.inl h
            · exact Or.inr (Or.inl h)
            · exact Or.inr (Or.inr (Or.inl h))
            · have := h.2 x (hmem (x :: xs) (List.mem_cons_of_mem _ hl) x (by simp))
              rw [hr', Option.some.injEq] at this
              exact Or.inr (Or.inr (Or.inr ⟨h.1, this.1⟩)))
          exact ⟨r' :: v, w, vals_cons hr' hv, hw, hi⟩
    have hne : ∀ l ∈ (t :: g0) :: gs, l ≠ [] := by
      intro l hl
      rcases List.mem_cons.mp hl with rfl | hl
      · simp
      · rintro rfl
        obtain ⟨o, -, x, xs, r', v, h, -⟩ := forall₂_left e8 hl
        cases h
    have hsame : ∀ l ∈ (t :: g0) :: gs, ∀ p ∈ l, ∀ q ∈ l, periodNo u yt p.at_.days = periodNo u yt q.at_.days := by
      intro l hl
      rcases List.mem_cons.mp hl with rfl | hl
      · intro p hp q hq
        rw [hno0 p hp, hno0 q hq]
      · exact e5 l hl
    have hord : ((t :: g0) :: gs).Pairwise (fun l m => ∀ p ∈ l, ∀ q ∈ m, periodNo u yt p.at_.days < periodNo u yt q.at_.days) := by
      refine List.pairwise_cons.mpr ⟨fun l hl p hp q hq => ?_, e4⟩
      rw [hno0 p hp]
      exact e3 l hl q hq
    obtain ⟨ns, n1, n2, n3⟩ := groups_numbers (no := fun t => periodNo u yt t.at_.days) hne hsame hord hall
    rw [← hflat] at n2 n3
    refine ⟨ns, n1, n2, ?_⟩
    refine (forall₂_mem n3).imp ?_
    rintro n o ⟨hn, hl, hv⟩
    obtain ⟨x, hx, hxn⟩ := (n2 n).mp hn
    refine ⟨?_, hv⟩
    rw [← hxn]
    exact hl x (List.mem_filter.mpr ⟨hx, by simpa using hxn⟩)

/-- Years, months and days with terms come out in order, each one once, dated with its start, centre or end, with the statistic of all of
the transformed terms in it.  Missing: series in which neighbouring terms are in months or days of equal number but not in the same one
(`C138_merge_violated`), the centre of years that end in March (`C138_centre_violated`), greatest value, least value and range of
transformed values or values beyond 1e30 (`C138_transform_violated`), and the median (`C138_median_violated`). -/
theorem C138_periods_partial (g : Rat → Option Rat) (sqrt : Rat → Rat) (u : PUnit) (yt : YearType) (ab : Abscissa) (st : PStat) (b e : Clock)
    (hb : b.Proper) (he : e.Proper) (s : List Term) (ho : Ordered s) (hu : u ≠ .monthOne) (hd : ∀ t ∈ s, firstDay ≤ t.at_.days)
    (hg : Gapless u (within b e s)) (hc : ¬ (u = .year ∧ yt = .waterLow ∧ ab = .centre))
    (hst : (st = .sum ∨ st = .mean ∨ st = .stdDev) ∨ (st ≠ .median ∧ ∀ t ∈ within b e s, g t.val = some t.val ∧ |t.val| ≤ 10 ^ 30))
    (out : List (Clock × Option Rat)) (h : periodStats g sqrt u yt ab st b e s = some out) :
    ∃ ns : List Int, ns.Pairwise (· < ·) ∧ (∀ n, n ∈ ns ↔ ∃ t ∈ within b e s, periodNo u yt t.at_.days = n) ∧
      List.Forall₂ (fun n o => IsLabel u yt ab n o.1 ∧ ∃ w v,
        ((within b e s).filter fun t => periodNo u yt t.at_.days = n).mapM (fun t => g t.val) = some w ∧ o.2 = some v ∧
        IsStat sqrt st w v) ns out := by
  unfold periodStats at h
  rw [C127_reduce b e hb he s ho] at h
  split at h
  · cases h
  · have ho' : Ordered (within b e s) := ⟨ho.1.filter _, fun t ht => ho.2 t (List.mem_filter.mp ht).1⟩
    exact terms_groups g sqrt u yt ab st _ hu ho' (fun t ht => hd t (List.mem_filter.mp ht).1) hg hc hst out h

/-- Months of all years: every month with terms comes out once, in the order of the calendar, with the statistic of its terms in all years,
and is dated with its start, centre or end in the year 1800.  Missing: values beyond 1e30, whose greatest and least are not found, and the
median (`C138_median_violated`). -/
theorem C138_month_one_partial (g : Rat → Option Rat) (sqrt : Rat → Rat) (yt : YearType) (ab : Abscissa) (st : PStat) (b e : Clock)
    (hb : b.Proper) (he : e.Proper) (s : List Term) (ho : Ordered s) (hd : ∀ t ∈ s, firstDay ≤ t.at_.days)
    (hst : (st = .sum ∨ st = .mean ∨ st = .stdDev) ∨ (st ≠ .median ∧ ∀ t ∈ within b e s, ∀ r, g t.val = some r → |r| ≤ 10 ^ 30))
    (out : List (Clock × Option Rat)) (h : periodStats g sqrt .monthOne yt ab st b e s = some out) :
    ∃ ms : List Int, ms.Pairwise (· < ·) ∧ (∀ m, m ∈ ms ↔ ∃ t ∈ within b e s, (gregorianDate t.at_.days 0).month = m) ∧
      List.Forall₂ (fun m o => (o.1.secs = 0 ∧ gregorianDate o.1.days 0 =
          ⟨1800, m, match ab with | .start => 1 | .centre => 15 | .end_ => monthDays 1800 m⟩) ∧ ∃ w v,
        ((within b e s).filter fun t => (gregorianDate t.at_.days 0).month = m).mapM (fun t => g t.val) = some w ∧ o.2 = some v ∧
        IsStat sqrt st w v) ms out := by
  unfold periodStats at h
  rw [C127_reduce b e hb he s ho] at h
  split at h
  · cases h
  rename_i hw
  rw [Option.bind_some] at h
  generalize hW : within b e s = W at *
  have h38 : ∀ x ∈ W, 38 ≤ x.at_.days := fun x hx => le_trans (by decide) (hd x (by rw [← hW] at hx; exact (List.mem_filter.mp hx).1))
  cases W with
  | nil => exact absurd rfl hw
  | cons t ts =>
    simp only [periodTerms, if_true] at h
    obtain ⟨f, hf, rfl⟩ := Option.map_eq_some_iff.mp h
    have hs := monthLoop_spec (t :: ts) _ f hf
    have hn : ∀ m, 0 < (f m).n ↔ ∃ x ∈ t :: ts, (gregorianDate x.at_.days 0).month = m := by
      intro m
      obtain ⟨w, h1, h2⟩ := hs m
      rw [h2, (fold_sums w .empty).1]
      have hl := vals_length h1
      have : 0 < w.length ↔ ((t :: ts).filter fun t => (gregorianDate t.at_.days 0).month = m) ≠ [] := by
        rw [hl]
        exact List.length_pos_iff
      simp only [Acc.empty, Nat.zero_add]
      rw [this, Ne, List.filter_eq_nil_iff]
      simp only [decide_eq_true_eq, not_forall, not_not, exists_prop]
    have hmonths : ∀ m ∈ (List.range 12).map (fun (i : Nat) => ((i : Int) + 1)), 1 ≤ m ∧ m ≤ 12 := by decide
    have hin : ∀ m : Int, 1 ≤ m → m ≤ 12 → m ∈ (List.range 12).map (fun (i : Nat) => ((i : Int) + 1)) := by
      intro m h1 h2
      refine List.mem_map.mpr ⟨(m - 1).toNat, List.mem_range.mpr (by omega), by omega⟩
    refine ⟨((List.range 12).map fun (i : Nat) => ((i : Int) + 1)).filter (fun m => 0 < (f m).n), ?_, ?_, ?_⟩
    · refine List.Pairwise.filter _ ?_
      decide
    · intro m
      rw [List.mem_filter, decide_eq_true_eq, hn]
      refine ⟨fun h => h.2, fun h => ⟨?_, h⟩⟩
      obtain ⟨x, hx, rfl⟩ := h
      obtain ⟨-, hm, -⟩ := (C124_onto _ (h38 x hx)).1
      exact hin _ hm.1 hm.2
    · refine filterMap_forall₂ _ (fun m hm hp => ?_) (fun m _ hp => if_neg hp)
      refine ⟨_, if_pos hp, ?_, ?_⟩
      · have hb := hmonths m hm
        cases ab
        · exact month_one_start m hb
        · exact month_one_centre m hb
        · exact month_one_end m hb
      · obtain ⟨w, h1, h2⟩ := hs m
        cases w with
        | nil =>
          rw [h2] at hp
          simp [Acc.empty] at hp
        | cons r w =>
          simp only [h2, List.foldl_cons]
          obtain ⟨v, hv, hi⟩ := empty_stat (sqrt := sqrt) (st := st) (r := r) (l := w) (by
            rcases hst with (h | h | h) | h
            · exact Or.inl h
            · exact Or.inr (Or.inl h)
            · exact Or.inr (Or.inr (Or.inl h))
            · obtain ⟨x, hx, hxr⟩ := vals_mem h1 r (by simp)
              exact Or.inr (Or.inr (Or.inr ⟨h.1, h.2 x (List.mem_filter.mp hx).1 r hxr⟩)))
          exact ⟨r :: w, v, h1, hv, hi⟩

/-- A new series comes out exactly if there are terms in the period and all of them can be transformed. -/
theorem C138_defined (g : Rat → Option Rat) (sqrt : Rat → Rat) (u : PUnit) (yt : YearType) (ab : Abscissa) (st : PStat) (b e : Clock)
    (hb : b.Proper) (he : e.Proper) (s : List Term) (ho : Ordered s) :
    (∃ out, periodStats g sqrt u yt ab st b e s = some out) ↔ within b e s ≠ [] ∧ ∀ t ∈ within b e s, ∃ r, g t.val = some r := by
  unfold periodStats
  rw [C127_reduce b e hb he s ho]
  generalize within b e s = W
  cases W with
  | nil => simp
  | cons t ts =>
    rw [if_neg (by simp), Option.bind_some]
    unfold periodTerms
    simp only [ne_eq, reduceCtorEq, not_false_eq_true, true_and]
    split
    · rw [← monthLoop_some (g := g) (t :: ts) (fun _ => .empty)]
      simp only [Option.map_eq_some_iff]
      exact ⟨fun ⟨_, o, h, _⟩ => ⟨o, h⟩, fun ⟨o, h⟩ => ⟨_, o, h, rfl⟩⟩
    · exact loop_some _ _ _

/-! ### What goes wrong -/

/-- The centre of a year that ends in March is dated six months after its end. -/
theorem C138_centre_violated (g : Rat → Option Rat) (sqrt : Rat → Rat) (st : PStat) (t : Term) (ht : firstDay ≤ t.at_.days) (r : Rat)
    (hr : g t.val = some r) :
    ∃ o, periodTerms g sqrt .year .waterLow .centre st [t] = some [o] ∧
      periodNo .year .waterLow o.1.days = periodNo .year .waterLow t.at_.days + 1 := by
  have h38 : 38 ≤ t.at_.days := le_trans (by decide) ht
  have hv := (C124_onto _ h38).1
  have hy := year_pos ht
  refine ⟨(periodLabel .year .waterLow .centre (gregorianDate t.at_.days 0), statValue sqrt st (Acc.empty.add r)), ?_, ?_⟩
  · simp [periodTerms, periodLoop, hr, Acc.add]
  · have hw : 1 ≤ yearOf .waterLow (gregorianDate t.at_.days 0) := by
      simp only [yearOf]
      split <;> omega
    have hv2 : Valid ⟨yearOf .waterLow (gregorianDate t.at_.days 0), 10, 1⟩ := by
      refine ⟨by simp only; omega, by simp, by simp, by simp [monthDays]⟩
    have e := yearOf_eq .waterLow _ hv
    simp only [periodNo, periodLabel, gregorianDate_julianDay hv2]
    rw [← e]
    simp [lastMonth]

/-- Months of consecutive years without a term between them are taken for one month; so are days of equal number in different months. -/
theorem C138_merge_violated :
    let s : List Term := [⟨⟨julianDay ⟨2000, 1, 20⟩ 0, 0⟩, 1⟩, ⟨⟨julianDay ⟨2001, 1, 5⟩ 0, 0⟩, 2⟩]
    periodTerms some id .monthMany .calendar .start .sum s = some [(⟨julianDay ⟨2000, 1, 1⟩ 0, 0⟩, some 3)] ∧
    let d : List Term := [⟨⟨julianDay ⟨2000, 1, 20⟩ 0, 0⟩, 1⟩, ⟨⟨julianDay ⟨2000, 2, 20⟩ 0, 0⟩, 2⟩]
    periodTerms some id .daily .calendar .start .sum d = some [(⟨julianDay ⟨2000, 1, 20⟩ 0, 0⟩, some 3)] := by
  decide +kernel

/-- Of two years with a term each the second one has the untransformed value as greatest value. -/
theorem C138_transform_violated (g : Rat → Option Rat) (sqrt : Rat → Rat) (x y r q : Rat) (hx : g x = some r) (hy : g y = some q)
    (hr : -10 ^ 30 ≤ r) :
    periodTerms g sqrt .year .calendar .start .maximum
      [⟨⟨julianDay ⟨2000, 1, 1⟩ 0, 0⟩, x⟩, ⟨⟨julianDay ⟨2001, 1, 1⟩ 0, 0⟩, y⟩] =
      some [(⟨julianDay ⟨2000, 1, 1⟩ 0, 0⟩, some r), (⟨julianDay ⟨2001, 1, 1⟩ 0, 0⟩, some y)] := by
  have e1 : gregorianDate (julianDay ⟨2000, 1, 1⟩ 0) 0 = ⟨2000, 1, 1⟩ := by decide +kernel
  have e2 : gregorianDate (julianDay ⟨2001, 1, 1⟩ 0) 0 = ⟨2001, 1, 1⟩ := by decide +kernel
  have hm : (if r > -10 ^ 30 then r else -10 ^ 30) = r := by
    split
    · rfl
    · linarith
  simp [periodTerms, periodLoop, hx, hy, e1, e2, periodKey, yearOf, periodLabel, statValue, Acc.add, Acc.empty, Acc.restart]
  exact fun h => le_antisymm hr h

/-- The median is accepted, and no value is ever assigned to it. -/
theorem C138_median_violated (g : Rat → Option Rat) (sqrt : Rat → Rat) (u : PUnit) (hu : u ≠ .monthOne) (yt : YearType) (ab : Abscissa)
    (s : List Term) (hs : s ≠ []) (hd : ∀ t ∈ s, ∃ r, g t.val = some r) :
    ∃ out, periodTerms g sqrt u yt ab .median s = some out ∧ ∀ o ∈ out, o.2 = none := by
  cases s with
  | nil => exact absurd rfl hs
  | cons t ts =>
    unfold periodTerms
    simp only [if_neg hu]
    obtain ⟨out, h⟩ := (loop_some (g := g) (key := periodKey u yt)
      (mk := fun c a => (periodLabel u yt ab c, statValue sqrt .median a)) (t :: ts) (gregorianDate t.at_.days 0) .empty).mpr hd
    exact ⟨out, h, loop_values (fun o => o.2 = none) (fun _ _ => rfl) _ _ _ _ h⟩

/-! ### Examples -/

/-- Terms in two water years and three months, among them the last day of February. -/
def gauge : List Term :=
  [⟨⟨julianDay ⟨2000, 2, 29⟩ 0, 43200⟩, 4⟩, ⟨⟨julianDay ⟨2000, 9, 30⟩ 0, 0⟩, 2⟩, ⟨⟨julianDay ⟨2000, 10, 1⟩ 0, 0⟩, 5⟩,
    ⟨⟨julianDay ⟨2000, 10, 1⟩ 0, 100⟩, 9⟩]

example : Ordered gauge ∧ (∀ t ∈ gauge, firstDay ≤ t.at_.days) ∧ Gapless .monthMany gauge ∧ Gapless .daily gauge ∧ Gapless .year gauge ∧
    within ⟨2451545, 0⟩ ⟨2460000, 0⟩ gauge = gauge := by
  refine ⟨⟨?_, ?_⟩, ?_, ?_, ?_, ?_, ?_⟩
  · unfold gauge; decide +kernel
  · unfold gauge Clock.Proper; decide +kernel
  · unfold gauge firstDay; decide +kernel
  · unfold gauge Gapless; simp only [List.isChain_cons_cons, List.isChain_singleton]; decide +kernel
  · unfold gauge Gapless; simp only [List.isChain_cons_cons, List.isChain_singleton]; decide +kernel
  · unfold gauge Gapless; simp
  · unfold gauge within; decide +kernel

example : periodStats some id .year .waterHigh .end_ .maximum ⟨2451545, 0⟩ ⟨2460000, 0⟩ gauge =
    some [(⟨julianDay ⟨2000, 9, 30⟩ 0, 0⟩, some 4), (⟨julianDay ⟨2001, 9, 30⟩ 0, 0⟩, some 9)] := by decide +kernel

example : periodStats some id .monthMany .calendar .end_ .mean ⟨2451545, 0⟩ ⟨2460000, 0⟩ gauge =
    some [(⟨julianDay ⟨2000, 2, 29⟩ 0, 0⟩, some 4), (⟨julianDay ⟨2000, 9, 30⟩ 0, 0⟩, some 2), (⟨julianDay ⟨2000, 10, 31⟩ 0, 0⟩, some 7)] := by
  decide +kernel

example : periodStats some id .monthOne .calendar .end_ .range ⟨2451545, 0⟩ ⟨2460000, 0⟩ gauge =
    some [(⟨julianDay ⟨1800, 2, 28⟩ 0, 0⟩, some 0), (⟨julianDay ⟨1800, 9, 30⟩ 0, 0⟩, some 0), (⟨julianDay ⟨1800, 10, 31⟩ 0, 0⟩, some 4)] := by
  decide +kernel

/-- The hypotheses of what goes wrong. -/
example : firstDay ≤ (gauge.head (by simp [gauge])).at_.days ∧ (some (4 : Rat)) = some 4 ∧ (-10 ^ 30 : Rat) ≤ 4 := by
  unfold gauge firstDay; decide +kernel

end Verif.Tsp
