import Verif.Spec.TspCompare
import Verif.Lemmas.TspStat
import Mathlib.Tactic.Linarith
import Mathlib.Tactic.Ring
import Mathlib.Tactic.FieldSimp
import Mathlib.Algebra.Order.Field.Basic
import Mathlib.Algebra.Order.BigOperators.Group.List
/-
Lemmas for C135.
-/
namespace Verif.Tsp

theorem foldl_sum {α : Type} (f : α → Rat) (l : List α) (a : Rat) : l.foldl (fun a r => a + f r) a = a + (l.map f).sum := by
  induction l generalizing a with
  | nil => simp
  | cons x l ih => rw [List.foldl_cons, ih, List.map_cons, List.sum_cons]; ring

theorem total_eq (f : Row → Rat) (l : List Row) : total f l = (l.map f).sum := by
  rw [total, foldl_sum, zero_add]

theorem sum_pos_or {α : Type} (f : α → Rat) (l : List α) (h : ∀ r ∈ l, 0 ≤ f r) :
    0 ≤ (l.map f).sum ∧ ((l.map f).sum = 0 ↔ ∀ r ∈ l, f r = 0) := by
  induction l with
  | nil => simp
  | cons x l ih =>
    obtain ⟨h1, h2⟩ := ih fun r hr => h r (List.mem_cons_of_mem _ hr)
    have hx := h x (List.mem_cons_self ..)
    rw [List.map_cons, List.sum_cons]
    refine ⟨by linarith, ?_, ?_⟩
    · intro e
      have e1 : f x = 0 := by linarith
      have e2 := h2.1 (by linarith)
      intro r hr
      rcases List.mem_cons.1 hr with rfl | hr
      · exact e1
      · exact e2 r hr
    · intro e
      rw [e x (List.mem_cons_self ..), h2.2 fun r hr => e r (List.mem_cons_of_mem _ hr), zero_add]

theorem sum_le {α : Type} (f g : α → Rat) (l : List α) (h : ∀ r ∈ l, f r ≤ g r) : (l.map f).sum ≤ (l.map g).sum := by
  induction l with
  | nil => simp
  | cons x l ih =>
    rw [List.map_cons, List.sum_cons, List.map_cons, List.sum_cons]
    have := ih fun r hr => h r (List.mem_cons_of_mem _ hr)
    have := h x (List.mem_cons_self ..)
    linarith

theorem obsMean_eq (l : List Row) : obsMean l = mean (l.map Row.obs) := by
  rw [obsMean, total_eq, mean, List.length_map]

theorem sum_const (l : List Row) (c : Rat) (h : ∀ r ∈ l, r.obs = c) : (l.map Row.obs).sum = l.length * c := by
  induction l with
  | nil => simp
  | cons x l ih =>
    rw [List.map_cons, List.sum_cons, ih fun r hr => h r (List.mem_cons_of_mem _ hr), h x (List.mem_cons_self ..), List.length_cons]
    push_cast; ring

theorem mean_const (l : List Row) (hl : l ≠ []) (c : Rat) (h : ∀ r ∈ l, r.obs = c) : mean (l.map Row.obs) = c := by
  rw [mean, sum_const l c h, List.length_map]
  have : (l.length : Rat) ≠ 0 := by
    have := List.length_pos_iff.2 hl
    exact_mod_cast (by omega : l.length ≠ 0)
  field_simp

theorem distance_eq (f : Row → Rat → Rat) (base : Option (List Rat)) (l : List Row) :
    distance f base l = ((withBase base l).map fun p => f p.1 p.2).sum := by
  unfold distance withBase
  cases base with
  | none => rw [foldl_sum, zero_add, List.map_map, obsMean_eq]; rfl
  | some b =>
    simp only
    rw [foldl_sum (fun p : Row × Rat => f p.1 p.2), zero_add]

/-- Each pair comes once. -/
theorem withBase_fst (base : Option (List Rat)) (l : List Row) (h : ∀ b ∈ base, b.length = l.length) :
    (withBase base l).map Prod.fst = l := by
  unfold withBase
  cases base with
  | none => simp [List.map_map, Function.comp_def]
  | some b => exact List.map_fst_zip (by rw [h b rfl])

theorem spread_eq (l : List Row) : spread l = (l.map fun r => (r.obs - mean (l.map Row.obs)) ^ 2).sum := by
  rw [spread, total_eq, obsMean_eq]
  congr 1
  apply List.map_congr_left
  intro r _
  ring

/-- A measure of efficiency: one less a quotient. -/
theorem efficiency (a t : Rat) (ha : 0 ≤ a) (ht : 0 < t) : 1 - a / t ≤ 1 ∧ (1 - a / t = 1 ↔ a = 0) := by
  refine ⟨by have := div_nonneg ha ht.le; linarith, ?_, ?_⟩
  · intro h
    have : a / t = 0 := by linarith
    rcases div_eq_zero_iff.1 this with h | h
    · exact h
    · exact absurd h ht.ne'
  · rintro rfl; simp

/-- The sum of the errors is 0 for a perfect simulation only. -/
theorem errors (e : Nat) (he : 0 < e) (l : List Row) :
    0 ≤ total (fun r => |r.sim - r.obs| ^ e) l ∧ (total (fun r => |r.sim - r.obs| ^ e) l = 0 ↔ Perfect l) := by
  rw [total_eq]
  obtain ⟨h1, h2⟩ := sum_pos_or (fun r : Row => |r.sim - r.obs| ^ e) l fun r _ => pow_nonneg (abs_nonneg _) _
  refine ⟨h1, h2.trans ?_⟩
  unfold Perfect
  refine forall₂_congr fun r _ => ?_
  rw [pow_eq_zero_iff (by omega), abs_eq_zero, sub_eq_zero]

end Verif.Tsp
