import Verif.Lemmas.Formula
import Mathlib.Data.List.Perm.Basic
import Mathlib.Algebra.BigOperators.Group.List.Basic
/-
Lemmas on sorting by name and on the combination of equal elements.
-/
namespace Verif.Formula

theorem leb_refl : ∀ a, leb a a = true
  | [] => rfl
  | c :: a => by rw [leb, if_pos rfl]; exact leb_refl a

theorem leb_total : ∀ a b, leb a b = true ∨ leb b a = true
  | [], _ => .inl rfl
  | _ :: _, [] => .inr rfl
  | c :: a, d :: b => by
    rw [leb, leb]
    by_cases h : c = d
    · subst h; simpa using leb_total a b
    · rw [if_neg h, if_neg (Ne.symm h)]
      have : c.toNat ≠ d.toNat := fun h' => h (Char.toNat_inj.1 h')
      simp only [decide_eq_true_eq]; omega

theorem leb_antisymm : ∀ a b, leb a b = true → leb b a = true → a = b
  | [], [], _, _ => rfl
  | [], _ :: _, _, h => by simp [leb] at h
  | _ :: _, [], h, _ => by simp [leb] at h
  | c :: a, d :: b, h1, h2 => by
    rw [leb] at h1 h2
    by_cases h : c = d
    · subst h; simp at h1 h2; rw [leb_antisymm a b h1 h2]
    · rw [if_neg h] at h1; rw [if_neg (Ne.symm h)] at h2
      simp only [decide_eq_true_eq] at h1 h2; omega

theorem leb_trans : ∀ a b c, leb a b = true → leb b c = true → leb a c = true
  | [], _, _, _, _ => by simp [leb]
  | _ :: _, [], _, h, _ => by simp [leb] at h
  | _ :: _, _ :: _, [], _, h => by simp [leb] at h
  | x :: a, y :: b, z :: c, h1, h2 => by
    rw [leb] at h1 h2 ⊢
    by_cases hxy : x = y
    · subst hxy
      rw [if_pos rfl] at h1
      by_cases hxz : x = z
      · subst hxz; rw [if_pos rfl] at h2 ⊢; exact leb_trans a b c h1 h2
      · rw [if_neg hxz] at h2 ⊢; exact h2
    · rw [if_neg hxy] at h1
      by_cases hyz : y = z
      · subst hyz; rw [if_neg hxy]; exact h1
      · rw [if_neg hyz] at h2
        simp only [decide_eq_true_eq] at h1 h2
        have : x ≠ z := by rintro rfl; omega
        rw [if_neg this]; simp only [decide_eq_true_eq]; omega

theorem insert_perm {α} (key : α → List Char) (a : α) : ∀ l, (insert key a l).Perm (a :: l)
  | [] => .refl _
  | b :: l => by
    rw [insert]; split
    · exact .refl _
    · exact ((insert_perm key a l).cons b).trans (.swap a b l)

theorem sortBy_perm {α} (key : α → List Char) : ∀ l : List α, (sortBy key l).Perm l
  | [] => .refl _
  | a :: l => (insert_perm key a _).trans ((sortBy_perm key l).cons a)

/-- In the order of names. -/
def Sorted {α} (key : α → List Char) (l : List α) : Prop := l.Pairwise fun a b => leb (key a) (key b) = true

theorem insert_sorted {α} (key : α → List Char) (a : α) : ∀ {l}, Sorted key l → Sorted key (insert key a l)
  | [], _ => by simp [insert, Sorted]
  | b :: l, h => by
    have h' := h
    rw [Sorted, List.pairwise_cons] at h
    rw [insert]; split
    · rename_i hab
      rw [Sorted, List.pairwise_cons]
      refine ⟨fun c hc => ?_, h'⟩
      rcases List.mem_cons.1 hc with rfl | hc
      · exact hab
      · exact leb_trans _ _ _ hab (h.1 c hc)
    · rename_i hab
      have hba : leb (key b) (key a) = true := (leb_total (key a) (key b)).resolve_left hab
      rw [Sorted, List.pairwise_cons]
      refine ⟨fun c hc => ?_, insert_sorted key a h.2⟩
      rcases List.mem_cons.1 ((insert_perm key a l).subset hc) with rfl | hc
      · exact hba
      · exact h.1 c hc

theorem sortBy_sorted {α} (key : α → List Char) : ∀ l : List α, Sorted key (sortBy key l)
  | [] => by simp [sortBy, Sorted]
  | a :: l => insert_sorted key a (sortBy_sorted key l)

theorem total_perm {x : List Char} {a b : Elts} (h : a.Perm b) : total x a = total x b := by
  unfold total
  exact ((h.filter _).map _).sum_eq

theorem total_merge (x : List Char) : ∀ (e : List Char × Rat) (l : Elts), total x (merge e l) = total x (e :: l)
  | e, [] => rfl
  | e, b :: l => by
    rw [merge]; split
    · rename_i h
      rw [total_merge x _ l, total_cons, total_cons, total_cons, h]
      by_cases hx : e.1 = x <;> simp [hx]; ring
    · rw [total_cons, total_merge x b l, total_cons x e]

theorem names_merge : ∀ (e : List Char × Rat) (l : Elts) (x : List Char),
    x ∈ (merge e l).map (·.1) ↔ x ∈ (e :: l).map (·.1)
  | e, [], x => Iff.rfl
  | e, b :: l, x => by
    rw [merge]; split
    · rename_i h
      rw [names_merge _ l x]; simp [h]
    · rw [List.map_cons, List.mem_cons, names_merge b l x]; simp

theorem merge_nodup : ∀ (e : List Char × Rat) (l : Elts), Sorted (·.1) (e :: l) → ((merge e l).map (·.1)).Nodup
  | e, [], _ => by simp [merge]
  | e, b :: l, h => by
    have h' := h
    rw [Sorted, List.pairwise_cons] at h
    rw [merge]; split
    · rename_i hbe
      refine merge_nodup _ l ?_
      rw [Sorted, List.pairwise_cons]
      refine ⟨fun c hc => h.1 c (List.mem_cons_of_mem _ hc), ?_⟩
      have := h.2
      rw [List.pairwise_cons] at this
      exact this.2
    · rename_i hbe
      have h2 : Sorted (·.1) (b :: l) := h.2
      rw [List.map_cons, List.nodup_cons]
      refine ⟨?_, merge_nodup b l h2⟩
      rw [names_merge, List.mem_map]
      rintro ⟨c, hc, hce⟩
      have hb : leb b.1 e.1 = true := by
        rcases List.mem_cons.1 hc with rfl | hc'
        · exact hce ▸ leb_refl _
        · rw [Sorted, List.pairwise_cons] at h2
          have := h2.1 c hc'
          simp only [hce] at this
          exact this
      exact hbe (leb_antisymm _ _ hb (h.1 b (by simp)))

theorem total_combine (x : List Char) (l : Elts) : total x (combine l) = total x l := by
  have hp := sortBy_perm (fun e : List Char × Rat => e.1) l
  unfold combine
  cases h : sortBy (fun e : List Char × Rat => e.1) l with
  | nil => rw [h] at hp; rw [← total_perm hp]
  | cons e r => rw [h] at hp; simp only; rw [total_merge, total_perm hp]

theorem names_combine (x : List Char) (l : Elts) : x ∈ (combine l).map (·.1) ↔ x ∈ l.map (·.1) := by
  have hp := sortBy_perm (fun e : List Char × Rat => e.1) l
  unfold combine
  cases h : sortBy (fun e : List Char × Rat => e.1) l with
  | nil => rw [h] at hp; rw [List.nil_perm.1 hp]
  | cons e r => rw [h] at hp; simp only; rw [names_merge]; exact (hp.map _).mem_iff

theorem combine_nodup (l : Elts) : ((combine l).map (·.1)).Nodup := by
  have hs := sortBy_sorted (fun e : List Char × Rat => e.1) l
  unfold combine
  cases h : sortBy (fun e : List Char × Rat => e.1) l with
  | nil => simp
  | cons e r => rw [h] at hs; exact merge_nodup e r hs

theorem total_absent {x : List Char} {l : Elts} (h : x ∉ l.map (·.1)) : total x l = 0 := by
  unfold total
  rw [List.filter_eq_nil_iff.2]
  · rfl
  · intro e he
    simp only [decide_eq_true_eq]
    rintro rfl
    exact h (List.mem_map_of_mem he)

theorem total_nodup : ∀ {l : Elts} {e : List Char × Rat}, (l.map (·.1)).Nodup → e ∈ l → total e.1 l = e.2
  | [], _, _, h => by simp at h
  | b :: l, e, hn, h => by
    rw [List.map_cons, List.nodup_cons] at hn
    rw [total_cons]
    rcases List.mem_cons.1 h with rfl | h
    · rw [if_pos rfl, total_absent hn.1, add_zero]
    · have : b.1 ≠ e.1 := fun hb => hn.1 (hb ▸ List.mem_map_of_mem h)
      rw [if_neg this, total_nodup hn.2 h, zero_add]

/-- A condition on all combined entries is a condition on the totals. -/
theorem combine_all {P : List Char → Rat → Prop} (l : Elts) (h0 : ∀ x, P x 0) :
    (∀ e ∈ combine l, P e.1 e.2) ↔ ∀ x, P x (total x l) := by
  constructor
  · intro h x
    by_cases hx : x ∈ (combine l).map (·.1)
    · obtain ⟨e, he, rfl⟩ := List.mem_map.1 hx
      rw [← total_combine, total_nodup (combine_nodup l) he]
      exact h e he
    · rw [← total_combine, total_absent hx]; exact h0 x
  · intro h e he
    have := h e.1
    rwa [← total_combine, total_nodup (combine_nodup l) he] at this

end Verif.Formula
