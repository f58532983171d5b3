import Verif.Lemmas.TspSort
/-
C125: sorting in TSPROC.
-/
namespace Verif.Tsp

/-- Sorting ends, reads no element outside the list, and gives the elements given, each with its place, in order.  The depth of
recursion is not greater than the length of the list. -/
theorem C125_sorts (l : List Rat) (f : Nat) (hf : l.length < f) :
    ∃ out, quickSort f l = some out ∧ out.Perm (l.zipIdx 1) ∧ (out.map Prod.fst).Pairwise (· ≤ ·) :=
  quickSort_spec l f hf

/-- The list is the list given in order, and the second array tells where each element has been. -/
theorem C125_order (l : List Rat) (f : Nat) (hf : l.length < f) (out : List (Rat × Nat)) (h : quickSort f l = some out) :
    (out.map Prod.fst).Perm l ∧ (out.map Prod.snd).Perm (List.range' 1 l.length) ∧
    ∀ p ∈ out, 1 ≤ p.2 ∧ l[p.2 - 1]? = some p.1 := by
  obtain ⟨out', h1, h2, -⟩ := quickSort_spec l f hf
  rw [h1, Option.some.injEq] at h
  subst h
  refine ⟨?_, ?_, fun p hp => ?_⟩
  · simpa using h2.map Prod.fst
  · simpa [List.zipIdx_map_snd] using h2.map Prod.snd
  · exact List.mem_zipIdx_iff_le_and_getElem?_sub.1 (h2.mem_iff.1 hp)

/-- The order of the elements given does not matter to the list that results. -/
theorem C125_canonical (l l' : List Rat) (h : l.Perm l') (out out' : List (Rat × Nat)) (h1 : quickSort (l.length + 1) l = some out)
    (h2 : quickSort (l'.length + 1) l' = some out') : out.map Prod.fst = out'.map Prod.fst := by
  obtain ⟨o, e, -, s⟩ := quickSort_spec l _ (Nat.lt_succ_self _)
  obtain ⟨o', e', -, s'⟩ := quickSort_spec l' _ (Nat.lt_succ_self _)
  have p := (C125_order l _ (Nat.lt_succ_self _) out h1).1
  have p' := (C125_order l' _ (Nat.lt_succ_self _) out' h2).1
  rw [e, Option.some.injEq] at h1
  rw [e', Option.some.injEq] at h2
  subst h1; subst h2
  exact (p.trans (h.trans p'.symm)).eq_of_pairwise (fun a b _ _ => le_antisymm) s s'

example : quickSort 9 [5, 3, 8, 1, 9, 2, 7, 3] = some [(1, 4), (2, 6), (3, 8), (3, 2), (5, 1), (7, 7), (8, 3), (9, 5)] := by
  decide +kernel

end Verif.Tsp
