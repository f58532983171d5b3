import Verif.Spec.Basic
import Verif.Lemmas.Basic1
import Mathlib.Tactic.Linarith
import Mathlib.Tactic.Ring
import Mathlib.Tactic.FieldSimp
import Mathlib.Tactic.NormNum
import Mathlib.Data.List.Lex
import Mathlib.Algebra.Order.Floor.Ring
import Mathlib.Data.Int.ModEq
/-
Helper lemmas for C121: the operators of the model mean what the specification says.
-/
namespace Verif.Basic

/-- An optional value as an outcome. -/
def toR {α : Type} : Option α → R α
  | some a => .ok a
  | none => .error .bad

theorem trunc_whole (x : Rat) : trunc x = whole x := by
  unfold trunc whole
  have hd : (0 : Int) < x.den := by exact_mod_cast x.den_pos
  split_ifs with h
  · have hn : 0 ≤ x.num := Rat.num_nonneg.mpr h
    rw [Int.tdiv_eq_ediv_of_nonneg hn, Rat.floor_def', ]
  · have hn : 0 ≤ (-x).num := Rat.num_nonneg.mpr (by linarith)
    have h2 : x.num.tdiv x.den = -((-x).num.tdiv x.den) := by
      rw [Rat.num_neg_eq_neg_num, Int.neg_tdiv, neg_neg]
    rw [h2, Int.tdiv_eq_ediv_of_nonneg hn]
    have : ⌈x⌉ = -⌊-x⌋ := by rw [Int.floor_neg, neg_neg]
    rw [this, Rat.floor_def', Rat.den_neg_eq_den]

theorem fmod_remainder (L : Lib) (x y) : fmod L x y = remainder L x y := by
  unfold fmod remainder; rw [trunc_whole]

theorem strcmp_lt (a b : List Nat) : strcmp a b = .lt ↔ a < b := by
  induction a generalizing b with
  | nil => cases b <;> simp [strcmp]
  | cons x s ih =>
    cases b with
    | nil => simp [strcmp]
    | cons y t =>
      rw [strcmp, List.cons_lt_cons_iff]
      split_ifs with h1 h2
      · simp [h1]
      · simp; omega
      · rw [ih]; constructor
        · intro h; right; exact ⟨by omega, h⟩
        · rintro (h | ⟨_, h⟩)
          · omega
          · exact h

theorem strcmp_gt (a b : List Nat) : strcmp a b = .gt ↔ b < a := by
  induction a generalizing b with
  | nil => cases b <;> simp [strcmp]
  | cons x s ih =>
    cases b with
    | nil => simp [strcmp]
    | cons y t =>
      rw [strcmp, List.cons_lt_cons_iff]
      split_ifs with h1 h2
      · simp; omega
      · simp [h2]
      · rw [ih]; constructor
        · intro h; right; exact ⟨by omega, h⟩
        · rintro (h | ⟨_, h⟩)
          · omega
          · exact h

theorem strcmp_eq (a b : List Nat) : strcmp a b = .eq ↔ a = b := by
  induction a generalizing b with
  | nil => cases b <;> simp [strcmp]
  | cons x s ih =>
    cases b with
    | nil => simp [strcmp]
    | cons y t =>
      rw [strcmp, List.cons.injEq]
      split_ifs with h1 h2
      · simp; omega
      · simp; omega
      · rw [ih]; constructor
        · intro h; exact ⟨by omega, h⟩
        · exact fun h => h.2

theorem holds_str (o : Op) (a b : List Nat) : holds o (strcmp a b) = true ↔
    (o = .eq ∧ a = b) ∨ (o = .ne ∧ a ≠ b) ∨ (o = .lt ∧ a < b) ∨ (o = .le ∧ (a < b ∨ a = b)) ∨ (o = .gt ∧ b < a) ∨
      (o = .ge ∧ (b < a ∨ a = b)) := by
  have i1 := strcmp_lt a b
  have i2 := strcmp_eq a b
  have i3 := strcmp_gt a b
  rcases h : strcmp a b with _ | _ | _ <;> rw [h] at i1 i2 i3 <;> simp at i1 i2 i3 <;>
    cases o <;> simp [holds, i1, i2, i3]

theorem holds_num (o : Op) (a b : Rat) : holds o (numcmp a b) = true ↔
    (o = .eq ∧ a = b) ∨ (o = .ne ∧ a ≠ b) ∨ (o = .lt ∧ a < b) ∨ (o = .le ∧ a ≤ b) ∨ (o = .gt ∧ b < a) ∨ (o = .ge ∧ b ≤ a) := by
  unfold numcmp
  split_ifs with h1 h2
  · have h2 : a ≠ b := ne_of_lt h1
    cases o <;> simp [holds, h1, h2, le_of_lt h1, not_lt_of_gt h1, not_le_of_gt h1]
  · have h3 : a ≠ b := (ne_of_lt h2).symm
    cases o <;> simp [holds, h2, h3, le_of_lt h2, not_lt_of_gt h2, not_le_of_gt h2]
  · have h3 : a = b := le_antisymm (not_lt.1 h2) (not_lt.1 h1)
    subst h3
    cases o <;> simp [holds]

theorem even_mod (k : Int) : Even k ↔ ¬ k % 2 ≠ 0 := by
  rw [Int.even_iff]; omega

theorem raise_power (L : Lib) (x y) : raise L x y = toR (power L x y) := by
  unfold raise power
  rw [trunc_whole]
  rcases lt_trichotomy x 0 with h | h | h
  · rw [if_neg (not_le.2 h), if_neg (not_lt.2 h.le), if_neg (ne_of_lt h)]
    by_cases hy : y = whole y
    · rw [if_neg (not_not.2 hy), if_pos hy]
      by_cases he : Even (whole y)
      · rw [if_pos he, if_neg ((even_mod _).1 he)]; rfl
      · rw [if_neg he, if_pos (not_not.1 (fun q => he ((even_mod _).2 q)))]; rfl
    · rw [if_pos hy, if_neg hy]; rfl
  · subst h; simp [toR]
  · rw [if_pos h.le, if_pos h, if_pos h]; rfl

theorem mod_meaning (L : Lib) (a b : Rat) :
    (if a ≠ 0 then |a| / a * fmod L (|a| + 1 / 100000000000000) b else 0) =
    (if 0 < a then remainder L (a + 1 / 10 ^ 14) b else if a < 0 then -remainder L (-a + 1 / 10 ^ 14) b else 0) := by
  rw [fmod_remainder]
  have e : (1 : Rat) / 100000000000000 = 1 / 10 ^ 14 := by norm_num
  rw [e]
  rcases lt_trichotomy a 0 with h | h | h
  · rw [if_pos (ne_of_lt h), if_neg (not_lt.2 h.le), if_pos h, abs_of_neg h, neg_div, div_self (ne_of_lt h)]; ring
  · subst h; simp
  · rw [if_pos (ne_of_gt h), if_pos h, abs_of_pos h, div_self (ne_of_gt h)]; ring

theorem apply_meaning (L : Lib) (o a b) : apply L o a b = toR (meaning L o a b) := by
  cases a <;> cases b <;> cases o <;> unfold apply meaning <;> first | rfl | skip
  all_goals first
    | (simp only [holds_num, holds_str, toR, truth]; simp; done)
    | (simp only [trunc_whole, toR]; done)
    | (simp only [mod_meaning, toR]; done)
    | (simp only [raise_power]; rename_i x y; cases power L x y <;> rfl)
    | (simp only [toR]; split_ifs <;> simp_all; done)
    | skip

theorem lnot_eq (k : Int) : Int.lnot k = -1 - k := by
  cases k with
  | ofNat m => simp [Int.lnot, Int.negSucc_eq]; omega
  | negSucc m => simp [Int.lnot, Int.negSucc_eq]

theorem applyFn_meaning (L : Lib) (f a) : applyFn L f a = toR (fnMeaning L f a) := by
  cases a <;> cases f <;> unfold applyFn fnMeaning <;> first | rfl | skip
  · simp only [toR, lnot_eq]; push_cast; rfl
  · simp only [toR]; rw [sq]
  · rename_i a
    simp only [toR]
    rcases lt_trichotomy a 0 with h | h | h
    · simp [h, not_lt.2 h.le, ne_of_lt h]
    · subst h; simp
    · simp [h, not_lt.2 h.le, ne_of_gt h]

theorem sign_meaning (o a) (ho : o = .minus ∨ o = .plus) :
    applySign o a = toR (a.number.map fun r => .num (if o = .minus then -r else r)) := by
  cases a <;> rcases ho with rfl | rfl <;> rfl

theorem lv_prec (o : Op) : lv o = prec o := by cases o <;> rfl

end Verif.Basic
