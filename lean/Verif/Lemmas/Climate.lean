import Verif.Spec.Climate
import Mathlib.Tactic.Linarith
import Mathlib.Tactic.Ring
import Mathlib.Tactic.SplitIfs
import Mathlib.Tactic.NormNum
import Mathlib.Tactic.FieldSimp
import Mathlib.Tactic.Positivity
import Mathlib.Tactic.IntervalCases
import Mathlib.Algebra.BigOperators.Group.List.Basic
/-
Lemmas about the climate of the units.
-/
namespace Verif.Climate

/-! ### Temperatures of units -/

theorem temps_inv (u : Unit') (r : Rec) (rs : List Rec) (s : Corr × Temps)
    (h : s.1 = ⟨u.maxLapse r.month * u.elfac - u.maxAdj, u.minLapse r.month * u.elfac - u.minAdj⟩) (ht : UnitTemps u r s.2)
    (hm : MonthsBegin r rs) :
    UnitTemps u ((r :: rs).getLast (by simp)) (rs.foldl (fun s x => t1run u false x s.1) s).2 := by
  induction rs generalizing r s with
  | nil => exact ht
  | cons x xs ih =>
    obtain ⟨h1, h2⟩ := hm
    rw [List.foldl_cons, List.getLast_cons (by simp)]
    have hc : (t1run u false x s.1).1 = ⟨u.maxLapse x.month * u.elfac - u.maxAdj, u.minLapse x.month * u.elfac - u.minAdj⟩ := by
      unfold t1run
      simp only [Bool.false_eq_true, false_or]
      split_ifs with hd
      · rfl
      · rcases h1 with h1 | h1
        · rw [h, h1]
        · exact absurd h1 hd
    refine ih x _ hc ?_ h2
    have : (t1run u false x s.1).2 = ⟨x.max - (t1run u false x s.1).1.x, x.min - (t1run u false x s.1).1.n,
        x.avg - ((t1run u false x s.1).1.x + (t1run u false x s.1).1.n) / 2⟩ := rfl
    rw [this, hc]
    exact ⟨rfl, rfl, rfl⟩

/-! ### Moving average -/

/-- The array after the rotation: the slot to be written, then the newest values. -/
theorem reacts_state (days adj : Rat) (n : Nat) (ts : List Rat) (a : List Rat) (v : Rat) (ha : a.length = n + 1) (hn : ts ≠ []) :
    ∃ x, ts.foldl (fun s t => react days adj s.1 t) (a, v) =
      (x :: ((ts.reverse ++ a.tail).take n),
       (react days adj (0 :: (ts.reverse.tail ++ a.tail).take n) (ts.getLast hn)).2) := by
  induction ts using List.reverseRecOn generalizing v with
  | nil => exact absurd rfl hn
  | append_singleton ts t ih =>
    obtain ⟨c, a', rfl⟩ : ∃ c a', a = c :: a' := by
      cases a with
      | nil => simp at ha
      | cons c a' => exact ⟨c, a', rfl⟩
    have hl : a'.length = n := by simpa using ha
    have key : ∀ y : Rat, ∀ b : List Rat, b.length = n → ∃ x, cshift ((y :: b).set 0 t) = x :: (t :: b).take n := by
      intro y b hb
      have : (y :: b).set 0 t = t :: b := rfl
      rw [this]
      unfold cshift
      rw [List.getLast?_eq_some_getLast (by simp)]
      refine ⟨(t :: b).getLast (by simp), ?_⟩
      rw [List.dropLast_eq_take]
      simp [hb]
    rw [List.foldl_append, List.foldl_cons, List.foldl_nil]
    by_cases hts : ts = []
    · subst hts
      obtain ⟨x, hx⟩ := key c a' hl
      refine ⟨x, ?_⟩
      simp only [List.foldl_nil, List.nil_append, List.reverse_singleton, List.tail_cons, List.getLast_singleton,
        List.singleton_append]
      have h2 : a'.take n = a' := by rw [← hl, List.take_length]
      rw [h2]
      unfold react
      simp only [hx]
      rfl
    · obtain ⟨x, hx⟩ := ih v hts
      rw [hx]
      have hlen : ((ts.reverse ++ (c :: a').tail).take n).length = n := by
        rw [List.length_take]; simp; omega
      obtain ⟨x', hx'⟩ := key x _ hlen
      refine ⟨x', ?_⟩
      simp only [List.reverse_append, List.reverse_singleton, List.singleton_append, List.cons_append, List.tail_cons,
        List.getLast_append_singleton, List.nil_append] at hx' ⊢
      have h3 : (t :: (ts.reverse ++ a').take n).take n = (t :: (ts.reverse ++ a')).take n := by
        cases n with
        | zero => rfl
        | succ m => rw [List.take_succ_cons, List.take_take, List.take_succ_cons]; congr 2; omega
      unfold react
      simp only [hx', h3]
      rfl

theorem ceil_pos {days : Rat} (h : 0 < days) : ∃ n : Nat, ⌈days⌉ = (n : Int) + 1 ∧ (n : Rat) < days ∧ days ≤ n + 1 := by
  have h1 : 0 < ⌈days⌉ := Int.ceil_pos.2 h
  refine ⟨(⌈days⌉ - 1).toNat, by omega, ?_, ?_⟩
  · have := Int.ceil_lt_add_one days
    have h2 : (((⌈days⌉ - 1).toNat : Int) : Rat) = (⌈days⌉ : Rat) - 1 := by
      rw [Int.toNat_of_nonneg (by omega)]; push_cast; ring
    have h3 : (((⌈days⌉ - 1).toNat : Nat) : Rat) = (⌈days⌉ : Rat) - 1 := by exact_mod_cast h2
    rw [h3]; linarith
  · have := Int.le_ceil days
    have h2 : (((⌈days⌉ - 1).toNat : Int) : Rat) = (⌈days⌉ : Rat) - 1 := by
      rw [Int.toNat_of_nonneg (by omega)]; push_cast; ring
    have h3 : (((⌈days⌉ - 1).toNat : Nat) : Rat) = (⌈days⌉ : Rat) - 1 := by exact_mod_cast h2
    rw [h3]; linarith

theorem frac_single {days : Rat} (h : 0 < days) (hs : Single days) :
    (⌈days⌉ : Rat) - days = 0 ∨ (⌈days⌉ : Rat) - days > 1 / 10 ^ 10 := by
  rcases hs with hs | ⟨m, hm⟩
  · right
    have : ⌈days⌉ ≥ 1 := by have := Int.ceil_pos.2 h; omega
    have h1 : (1 : Rat) ≤ (⌈days⌉ : Rat) := by exact_mod_cast this
    norm_num
    linarith
  · by_cases hz : (⌈days⌉ : Rat) - days = 0
    · exact .inl hz
    · right
      have h0 : 0 ≤ (⌈days⌉ : Rat) - days := by have := Int.le_ceil days; linarith
      have h1 : ((⌈days⌉ : Rat) - days) * 2 ^ 24 = ((⌈days⌉ * 2 ^ 24 - m : Int) : Rat) := by
        rw [hm]; push_cast; field_simp; ring
      have h2 : 0 < ((⌈days⌉ * 2 ^ 24 - m : Int) : Rat) := by
        rw [← h1]
        have : 0 < (⌈days⌉ : Rat) - days := lt_of_le_of_ne h0 (Ne.symm hz)
        positivity
      have h3 : (1 : Rat) ≤ ((⌈days⌉ * 2 ^ 24 - m : Int) : Rat) := by
        have : 0 < ⌈days⌉ * 2 ^ 24 - m := by exact_mod_cast h2
        exact_mod_cast this
      rw [← h1] at h3
      have : (1 : Rat) / 10 ^ 10 * 2 ^ 24 < 1 := by norm_num
      by_contra hc
      have hc : (⌈days⌉ : Rat) - days ≤ 1 / 10 ^ 10 := not_lt.1 hc
      have : ((⌈days⌉ : Rat) - days) * 2 ^ 24 ≤ 1 / 10 ^ 10 * 2 ^ 24 := mul_le_mul_of_nonneg_right hc (by norm_num)
      linarith

theorem react_value {days adj t : Rat} {n : Nat} (hn : ⌈days⌉ = (n : Int) + 1) (h : 0 < days) (hs : Single days) (b : List Rat) (hb : b.length = n) :
    ∃ last, (t :: b)[n]? = some last ∧
      (react days adj (0 :: b) t).2 = (((t :: b).take n).sum + (days - n) * last) / days + adj := by
  have hlen : n < (t :: b).length := by simp [hb]
  refine ⟨(t :: b)[n], List.getElem?_eq_getElem hlen, ?_⟩
  have hsum : (t :: b).sum = ((t :: b).take n).sum + (t :: b)[n] := by
    conv_lhs => rw [← List.take_append_drop n (t :: b), List.sum_append]
    congr 1
    rw [List.drop_eq_getElem_cons hlen]
    have : (t :: b).drop (n + 1) = [] := by rw [List.drop_eq_nil_iff]; simp [hb]
    rw [this]; simp
  unfold react
  have h1 : (0 :: b).set 0 t = t :: b := rfl
  simp only [h1]
  have h2 : (⌈days⌉.toNat - 1) = n := by omega
  rw [h2]
  have h3 : (t :: b).getD n 0 = (t :: b)[n] := by simp [List.getD_eq_getElem?_getD, List.getElem?_eq_getElem hlen]
  rw [h3]
  have hc : (⌈days⌉ : Rat) = n + 1 := by rw [hn]; push_cast; ring
  congr 2
  rcases frac_single h hs with hf | hf
  · rw [if_neg (by rw [hf]; norm_num), hsum]
    have : days - n = 1 := by rw [hc] at hf; linarith
    rw [this]; ring
  · rw [if_pos hf, hsum, hc]; ring

/-! ### Season -/

theorem addPos_eq (s t : Rat) : addPos s t = s + max 0 t := by
  unfold addPos
  split_ifs with h
  · rw [max_eq_right h.le]
  · rw [max_eq_left (not_lt.1 h)]; ring

theorem warmth_nonneg (ds : List Day) : 0 ≤ warmth ds := by
  unfold warmth
  apply List.sum_nonneg
  intro x hx
  obtain ⟨d, -, rfl⟩ := List.mem_map.1 hx
  exact le_max_left _ _

theorem warmth_snoc (ds : List Day) (d : Day) : warmth (ds ++ [d]) = warmth ds + max 0 d.tmax := by
  simp [warmth]

theorem noEnd_snoc {fin : Int} {ds : List Day} {d : Day} : NoEnd fin (ds ++ [d]) ↔ NoEnd fin ds ∧ ¬ FirstOf fin d := by
  simp [NoEnd, or_imp, forall_and]

theorem season_newDays (beg fin : Int) (idx : Rat) (ds : List Day) (l : Int) (s : Season) :
    (ds.foldl (seasonStep beg fin idx) (l, s)).2 = (newDays l ds).foldl (fun s d => seasonDay beg fin idx d s) s := by
  induction ds generalizing l s with
  | nil => rfl
  | cons d r ih =>
    rw [List.foldl_cons, newDays]
    unfold seasonStep
    simp only
    split_ifs with h
    · exact ih l s
    · rw [List.foldl_cons]; exact ih d.day _

theorem seasonInit_on {beg fin mo day : Int} (hb : 1 ≤ beg ∧ beg ≤ 12) (hf : 1 ≤ fin ∧ fin ≤ 12) (hm : 1 ≤ mo ∧ mo ≤ 12) (hne : beg ≠ fin) :
    ((seasonInit beg fin mo day).on = true ↔ StartsInside beg fin mo day) ∧
    ((seasonInit beg fin mo day).check = true ↔ mo = beg ∧ day ≤ 10) ∧ (seasonInit beg fin mo day).sum = 0 := by
  unfold seasonInit StartsInside
  by_cases h1 : mo = beg
  · subst h1
    simp only [if_true]
    by_cases h2 : day > 10
    · simp only [h2, if_true]
      refine ⟨by simp; try omega, by simp; try omega, trivial⟩
    · simp only [h2, if_false]
      refine ⟨by simp; try omega, by simp; try omega, trivial⟩
  · simp only [h1, if_false]
    by_cases h2 : fin - beg > 0
    · simp only [h2, if_true]
      refine ⟨?_, by simp, trivial⟩
      simp only [decide_eq_true_eq]
      constructor
      · intro h; right; exact ⟨h1, by omega⟩
      · rintro (h | h)
        · exact absurd h.1 (by simp)
        · have := h.2; omega
    · simp only [h2, if_false]
      refine ⟨?_, by simp, trivial⟩
      simp only [decide_eq_true_eq]
      constructor
      · intro h; right; exact ⟨h1, by omega⟩
      · rintro (h | h)
        · exact absurd h.1 (by simp)
        · have := h.2; omega

/-- Invariant of the switch. -/
structure SInv (beg fin : Int) (idx : Rat) (mo day : Int) (L : List Day) (s : Season) : Prop where
  zero : s.check = false → s.sum = 0
  check : s.check = true → ∃ e q, L = e ++ q ∧ Opens beg mo day e q ∧ NoEnd fin q ∧ s.sum = warmth q ∧ warmth q ≤ idx
  all : ∀ e q, L = e ++ q → Opens beg mo day e q → NoEnd fin q → s.on = true ∨ (s.check = true ∧ warmth q ≤ s.sum)
  on : s.on = true → Active beg fin idx mo day L
  start : StartsInside beg fin mo day → NoEnd fin L → s.on = true

theorem SInv.iff {beg fin : Int} {idx : Rat} {mo day : Int} {L : List Day} {s : Season} (h : SInv beg fin idx mo day L s) :
    s.on = true ↔ Active beg fin idx mo day L := by
  refine ⟨h.on, ?_⟩
  rintro (⟨h1, h2⟩ | ⟨e, q, h1, h2, h3, h4⟩)
  · exact h.start h1 h2
  · rcases h.all e q h1 h2 h3 with h5 | ⟨h5, h6⟩
    · exact h5
    · obtain ⟨e', q', -, -, -, h7, h8⟩ := h.check h5
      rw [h7] at h6
      exact absurd (lt_of_lt_of_le h4 (h6.trans h8)) (lt_irrefl _)

/-- Suffixes that open the season, one day later. -/
theorem opens_snoc {beg mo day : Int} {L : List Day} {d : Day} {e q : List Day} (h : L ++ [d] = e ++ q) (ho : Opens beg mo day e q) :
    (∃ q', q = q' ++ [d] ∧ L = e ++ q' ∧ Opens beg mo day e q') ∨ (q = [d] ∧ e = L ∧ FirstOf beg d) := by
  rcases List.eq_nil_or_concat q with rfl | ⟨q', x, rfl⟩
  · exfalso
    rcases ho with ⟨b, l, h1, -⟩ | ⟨h1, -⟩
    · simp at h1
    · subst h1; simp at h
  · rw [List.concat_eq_append] at h ho ⊢
    rw [← List.append_assoc] at h
    obtain ⟨h1, h2⟩ := List.append_inj' h rfl
    cases h2
    rcases ho with ⟨b, l, h3, h4⟩ | h3
    · cases q' with
      | nil =>
        right
        simp at h3 h1
        obtain ⟨rfl, rfl⟩ := h3
        exact ⟨rfl, h1.symm, h4⟩
      | cons c q' =>
        left
        simp at h3
        obtain ⟨rfl, rfl⟩ := h3
        exact ⟨_, rfl, h1, .inl ⟨_, _, rfl, h4⟩⟩
    · left
      exact ⟨q', rfl, h1, .inr h3⟩

theorem Opens.snoc {beg mo day : Int} {e q : List Day} (h : Opens beg mo day e q) (d : Day) : Opens beg mo day e (q ++ [d]) := by
  rcases h with ⟨b, l, rfl, h⟩ | h
  · exact .inl ⟨b, l ++ [d], rfl, h⟩
  · exact .inr h

theorem Active.snoc {beg fin : Int} {idx : Rat} {mo day : Int} {L : List Day} (h : Active beg fin idx mo day L) {d : Day}
    (hd : ¬ FirstOf fin d) : Active beg fin idx mo day (L ++ [d]) := by
  rcases h with ⟨h1, h2⟩ | ⟨e, q, rfl, h2, h3, h4⟩
  · exact .inl ⟨h1, noEnd_snoc.2 ⟨h2, hd⟩⟩
  · refine .inr ⟨e, q ++ [d], by simp, h2.snoc d, noEnd_snoc.2 ⟨h3, hd⟩, ?_⟩
    rw [warmth_snoc]
    have := le_max_left 0 d.tmax
    linarith

theorem sinv_step {beg fin : Int} {idx : Rat} {mo day : Int} {L : List Day} {s : Season} {d : Day} (hne : beg ≠ fin)
    (h : SInv beg fin idx mo day L s) (h0 : 0 ≤ idx) (hfirst : FirstOf beg d → d.tmax ≤ idx)
    (hwarm : ∀ e q, L = e ++ q → Opens beg mo day e q → NoEnd fin q → FirstOf fin d → idx < warmth q) :
    SInv beg fin idx mo day (L ++ [d]) (seasonDay beg fin idx d s) := by
  unfold seasonDay
  cases hc : s.check with
  | true =>
    simp only [if_true, addPos_eq]
    obtain ⟨e, q, h1, h2, h3, h4, h5⟩ := h.check hc
    have hd : ¬ FirstOf fin d := fun hf => absurd (hwarm e q h1 h2 h3 hf) (not_lt.2 h5)
    by_cases ht : s.sum + max 0 d.tmax > idx
    · simp only [ht, if_true]
      refine ⟨fun _ => rfl, fun h => by simp at h, fun _ _ _ _ _ => .inl rfl, fun _ => ?_, fun _ _ => rfl⟩
      refine .inr ⟨e, q ++ [d], by rw [h1]; simp, h2.snoc d, noEnd_snoc.2 ⟨h3, hd⟩, ?_⟩
      rw [warmth_snoc, ← h4]; exact ht
    · simp only [ht, if_false]
      refine ⟨fun hx => by simp [hc] at hx, fun _ => ⟨e, q ++ [d], by rw [h1]; simp, h2.snoc d, noEnd_snoc.2 ⟨h3, hd⟩, ?_, ?_⟩,
        ?_, fun hon => (h.on hon).snoc hd, fun ha hb => h.start ha (noEnd_snoc.1 hb).1⟩
      · rw [warmth_snoc, ← h4]
      · rw [warmth_snoc, ← h4]; exact not_lt.1 ht
      · intro e' q' he ho hn
        rcases opens_snoc he ho with ⟨q'', rfl, h6, h7⟩ | ⟨rfl, rfl, h6⟩
        · rcases h.all e' q'' h6 h7 (noEnd_snoc.1 hn).1 with h8 | ⟨-, h8⟩
          · exact .inl h8
          · right
            refine ⟨rfl, ?_⟩
            rw [warmth_snoc]
            linarith
        · right
          refine ⟨rfl, ?_⟩
          have : warmth [d] = max 0 d.tmax := by simp [warmth]
          rw [this, h4]
          have := warmth_nonneg q
          linarith
  | false =>
    have hz := h.zero hc
    simp only [Bool.false_eq_true, if_false]
    have hall : ∀ e q, L = e ++ q → Opens beg mo day e q → NoEnd fin q → s.on = true := by
      intro e q h1 h2 h3
      rcases h.all e q h1 h2 h3 with h4 | ⟨h4, -⟩
      · exact h4
      · rw [hc] at h4; simp at h4
    by_cases hday : d.day = 1
    · simp only [hday, if_true]
      by_cases hb : d.month = beg
      · simp only [hb, if_true, addPos_eq, hz, zero_add]
        have hfb : FirstOf beg d := ⟨hday, hb⟩
        have hd : ¬ FirstOf fin d := fun hf => hne (hb.symm.trans hf.2)
        have hw : warmth [d] = max 0 d.tmax := by simp [warmth]
        refine ⟨fun hx => by simp at hx, fun _ => ⟨L, [d], rfl, .inl ⟨d, [], rfl, hfb⟩, ?_, hw.symm, ?_⟩, ?_,
          fun hon => (h.on hon).snoc hd, fun ha hb => h.start ha (noEnd_snoc.1 hb).1⟩
        · intro x hx; simp at hx; subst hx; exact hd
        · rw [hw]; exact max_le h0 (hfirst hfb)
        · intro e' q' he ho hn
          rcases opens_snoc he ho with ⟨q'', rfl, h6, h7⟩ | ⟨rfl, rfl, h6⟩
          · exact .inl (hall e' q'' h6 h7 (noEnd_snoc.1 hn).1)
          · right; exact ⟨rfl, by rw [hw]⟩
      · simp only [hb, if_false]
        by_cases hf : d.month = fin
        · -- the season ends
          have hff : FirstOf fin d := ⟨hday, hf⟩
          have hoff : (if s.on = true ∧ d.month = fin then ({ on := false, check := false, sum := s.sum } : Season) else s) = { on := false, check := false, sum := s.sum } := by
            by_cases hon : s.on = true
            · simp [hon, hf]
            · rw [if_neg (fun hx => hon hx.1)]
              cases s
              simp at hon hc
              simp [hon, hc]
          rw [hoff]
          refine ⟨fun _ => hz, fun hx => by simp [hc] at hx, ?_, fun hx => by simp at hx,
            fun _ hn => absurd hff (noEnd_snoc.1 hn).2⟩
          intro e' q' he ho hn
          rcases opens_snoc he ho with ⟨q'', rfl, h6, h7⟩ | ⟨rfl, rfl, h6⟩
          · exact absurd hff (noEnd_snoc.1 hn).2
          · exact absurd h6.2 hb
        · have hd : ¬ FirstOf fin d := fun hx => hf hx.2
          have hsame : (if s.on = true ∧ d.month = fin then ({ on := false, check := false, sum := s.sum } : Season) else s) = s := by
            rw [if_neg (fun hx => hf hx.2)]
          rw [hsame]
          refine ⟨fun _ => hz, fun hx => by simp [hc] at hx, ?_, fun hon => (h.on hon).snoc hd,
            fun ha hb => h.start ha (noEnd_snoc.1 hb).1⟩
          intro e' q' he ho hn
          rcases opens_snoc he ho with ⟨q'', rfl, h6, h7⟩ | ⟨rfl, rfl, h6⟩
          · exact .inl (hall e' q'' h6 h7 (noEnd_snoc.1 hn).1)
          · exact absurd h6.2 hb
    · simp only [hday, if_false]
      have hd : ¬ FirstOf fin d := fun hx => hday hx.1
      refine ⟨fun _ => hz, fun hx => by simp [hc] at hx, ?_, fun hon => (h.on hon).snoc hd,
        fun ha hb => h.start ha (noEnd_snoc.1 hb).1⟩
      intro e' q' he ho hn
      rcases opens_snoc he ho with ⟨q'', rfl, h6, h7⟩ | ⟨rfl, rfl, h6⟩
      · exact .inl (hall e' q'' h6 h7 (noEnd_snoc.1 hn).1)
      · exact absurd h6.1 hday

theorem season_inv {beg fin : Int} {idx : Rat} {mo day : Int} (hb : 1 ≤ beg ∧ beg ≤ 12) (hf : 1 ≤ fin ∧ fin ≤ 12)
    (hm : 1 ≤ mo ∧ mo ≤ 12) (hne : beg ≠ fin) (h0 : 0 ≤ idx) (L : List Day) (hfirst : ∀ d ∈ L, FirstOf beg d → d.tmax ≤ idx)
    (hwarm : WarmYears beg fin idx mo day L) :
    SInv beg fin idx mo day L (L.foldl (fun s d => seasonDay beg fin idx d s) (seasonInit beg fin mo day)) := by
  induction L using List.reverseRecOn with
  | nil =>
    obtain ⟨h1, h2, h3⟩ := seasonInit_on (day := day) hb hf hm hne
    rw [List.foldl_nil]
    refine ⟨fun _ => h3, fun hc => ⟨[], [], rfl, .inr ⟨rfl, h2.1 hc⟩, by simp [NoEnd], by rw [h3]; rfl, h0⟩, ?_,
      fun hon => .inl ⟨h1.1 hon, by simp [NoEnd]⟩, fun hs _ => h1.2 hs⟩
    intro e q he ho _
    have he : e = [] ∧ q = [] := by simpa using he.symm
    obtain ⟨rfl, rfl⟩ := he
    rcases ho with ⟨b, l, h4, -⟩ | ⟨-, h4⟩
    · simp at h4
    · exact .inr ⟨h2.2 h4, by rw [h3]; exact le_rfl⟩
  | append_singleton L d ih =>
    rw [List.foldl_append]
    refine sinv_step hne (ih (fun x hx => hfirst x (by simp [hx])) ?_) h0 (hfirst d (by simp)) ?_
    · intro e q x l h1 h2 h3 h4
      exact hwarm e q x (l ++ [d]) (by rw [h1]; simp) h2 h3 h4
    · intro e q h1 h2 h3 h4
      exact hwarm e q d [] (by rw [h1]) h2 h3 h4

/-- While the index is not exceeded the check goes on. -/
theorem check_run {beg fin : Int} {idx : Rat} (q : List Day) (s : Season) (hc : s.check = true) (hq : s.sum + warmth q ≤ idx) :
    q.foldl (fun s d => seasonDay beg fin idx d s) s = { s with sum := s.sum + warmth q } := by
  induction q generalizing s with
  | nil => simp [warmth]
  | cons d q ih =>
    have hw : warmth (d :: q) = max 0 d.tmax + warmth q := by simp [warmth]
    have hq0 := warmth_nonneg q
    rw [hw] at hq ⊢
    rw [List.foldl_cons]
    have hstep : seasonDay beg fin idx d s = { s with sum := s.sum + max 0 d.tmax } := by
      unfold seasonDay
      simp only [hc, if_true, addPos_eq]
      rw [if_neg (by linarith)]
    rw [hstep, ih { s with sum := s.sum + max 0 d.tmax } hc (by simp only; linarith)]
    simp only [add_assoc]

/-! ### Potential evapotranspiration -/

theorem petruns_same (exp : Rat → Rat) (coef epan : Rat) (ws : List Weather) (l : Int) (v : Rat) (h : ∀ w ∈ ws, w.day = l ∧ w.dt < 24) :
    petruns exp coef epan ws (l, v) = some ((l, v), ws.map fun w => w.dt / 24 * v) := by
  induction ws with
  | nil => rfl
  | cons w r ih =>
    have hw := h w (by simp)
    rw [petruns, petrun]
    simp only [hw.1, if_true, hw.2, Option.map_some, Option.bind_some, ih (fun x hx => h x (by simp [hx])), List.map_cons]

end Verif.Climate
