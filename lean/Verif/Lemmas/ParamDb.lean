import Verif.Lemmas.Params
import Verif.Lemmas.Tables
/-
Lemmas for the parameter table (C04, C09).
-/
namespace Verif.Params
open Verif.CText Verif.Tables

theorem loadParam_inBounds {α : Type} [LinearOrder α] {ops : NumOps α}
    (hlt : ∀ a b, ops.lt a b = true ↔ a < b) {size : Nat} {b : Bounds} {d : List Char} {v : Vals α}
    (h : loadParam ops size b d = .ok v) :
    InBounds size v ∧ strToVals ops.parse d size = .ok v.value := by
  unfold loadParam at h
  have l1 : ∀ l, loadMin ops size b = .ok l → l.length = size := by
    intro l hl
    cases b with
    | strings m _ => exact strToVals_length hl
    | dim x => simp [loadMin] at hl; simp [← hl]
  have l2 : ∀ l, loadMax ops size b = .ok l → l.length = size := by
    intro l hl
    cases b with
    | strings _ m => exact strToVals_length hl
    | dim x => simp [loadMax] at hl; simp [← hl]
  generalize loadMin ops size b = mn at h l1
  generalize loadMax ops size b = mx at h l2
  cases mn with
  | ub => simp [Res.bind] at h
  | err => simp [Res.bind] at h
  | ok mn =>
  cases mx with
  | ub => simp [Res.bind] at h
  | err => simp [Res.bind] at h
  | ok mx =>
  cases hd : strToVals ops.parse d size with
  | ub => simp [Res.bind, hd] at h
  | err => simp [Res.bind, hd] at h
  | ok dv =>
  simp only [Res.bind, hd] at h
  by_cases hany : (List.range size).any (outOfRange ops mn mx dv) = true
  · simp [hany] at h
  · simp only [hany, Bool.false_eq_true, if_false, Res.ok.injEq] at h
    subst h
    have k1 := l1 mn rfl
    have k2 := l2 mx rfl
    have k3 := strToVals_length hd
    refine ⟨⟨rfl, k3, k1, k2, ?_⟩, rfl⟩
    intro i hi
    have e1 : mn[i]? = some mn[i] := List.getElem?_eq_getElem (by omega)
    have e2 : mx[i]? = some mx[i] := List.getElem?_eq_getElem (by omega)
    have e3 : dv[i]? = some dv[i] := List.getElem?_eq_getElem (by omega)
    refine ⟨mn[i], dv[i], mx[i], e1, e3, e2, ?_⟩
    rw [List.any_eq_true] at hany
    have hno : ¬ outOfRange ops mn mx dv i = true := fun hh => hany ⟨i, List.mem_range.2 hi, hh⟩
    simp only [outOfRange, e1, e2, e3, Bool.or_eq_true, hlt, not_or, not_lt] at hno
    exact ⟨hno.1.2, hno.2⟩

theorem paramAddr_none {α : Type} {db : List (Param α)} {name : CStr} :
    paramAddr db name = none ↔ name ∉ db.map Param.key := by
  unfold paramAddr
  rw [List.find?_eq_none]
  simp only [decide_eq_true_eq, strcmp_eq, List.mem_map, not_exists, not_and]

/-- What one declaration does to the table. -/
theorem declparam_table {α : Type} {ops : NumOps α} {dims : List Dim} {db db' : List (Param α)}
    {a : ParamDecl} {c : Int} (h : declparam ops dims db a = .ret c db') :
    ((a.type = none ∨ a.name ∈ db.map Param.key) ∧ db' = db ∧ c = 0) ∨
    (a.type ≠ none ∧ a.name ∉ db.map Param.key ∧ ∃ e : Param α, e.key = a.name ∧
      ((c = 1 ∧ db' = db ++ [e] ∧ e.vals = none) ∨
       (c = 0 ∧ db' = bubbleSort Param.key (db ++ [e]) ∧ ∃ v b, e.vals = some v ∧
          loadParam ops e.size b a.dflt = .ok v))) := by
  unfold declparam at h
  split at h
  · rename_i hty
    cases h
    exact Or.inl ⟨Or.inl hty, rfl, rfl⟩
  · rename_i ty hty
    split at h
    · rename_i p hp
      split at h
      · cases h
        refine Or.inl ⟨Or.inr ?_, rfl, rfl⟩
        by_contra hc
        rw [paramAddr_none.2 hc] at hp
        exact absurd hp (by simp)
      · exact absurd h (by simp)
    · rename_i hnone
      right
      refine ⟨by simp [hty], paramAddr_none.1 hnone, ?_⟩
      split at h
      · cases h; exact ⟨_, rfl, Or.inl ⟨rfl, rfl, rfl⟩⟩
      · simp only at h
        split at h
        · cases h; exact ⟨_, rfl, Or.inl ⟨rfl, rfl, rfl⟩⟩
        · split at h
          · cases h; exact ⟨_, rfl, Or.inl ⟨rfl, rfl, rfl⟩⟩
          · split at h
            · exact absurd h (by simp)
            · split at h
              · exact absurd h (by simp)
              · cases h; exact ⟨_, rfl, Or.inl ⟨rfl, rfl, rfl⟩⟩
              · rename_i hload
                cases h
                exact ⟨_, rfl, Or.inr ⟨rfl, rfl, _, _, rfl, hload⟩⟩

end Verif.Params
