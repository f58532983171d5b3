import Verif.Lemmas.BasicRun3
import Mathlib.Data.List.Induction
/-
Helper lemmas for C122 (the lines kept) and C123 (whole programs).
-/
namespace Verif.Basic

/-! ### The lines kept -/

/-- The lines are in the order of their numbers. -/
abbrev Sorted (p : List Line) : Prop := p.Pairwise fun a b => a.1 < b.1

theorem mem_enterAt (n : Nat) (t : List Tok) : ∀ {p : List Line}, Sorted p → ∀ m u,
    (m, u) ∈ enterAt n t p ↔ if m = n then u = t ∧ t ≠ [] else (m, u) ∈ p := by
  intro p
  induction p with
  | nil =>
    intro _ m u
    unfold enterAt
    split_ifs with h1 h2 h2
    · simp [h1]
    · simp
    · subst h2; simp [h1]
    · simp [h2]
  | cons a p ih =>
    obtain ⟨k, w⟩ := a
    intro hp m u
    have hp' := List.pairwise_cons.1 hp
    have hm : ∀ x, (m, x) ∈ p → k < m := fun x hx => hp'.1 _ hx
    unfold enterAt
    by_cases h1 : k < n
    · rw [if_pos h1, List.mem_cons, ih hp'.2 m u]
      by_cases h2 : m = n
      · rw [if_pos h2, if_pos h2]
        constructor
        · rintro (h | h)
          · simp only [Prod.mk.injEq] at h; omega
          · exact h
        · exact Or.inr
      · rw [if_neg h2, if_neg h2, List.mem_cons]
    · rw [if_neg h1]
      by_cases h2 : k = n
      · rw [if_pos h2]
        by_cases h3 : t = []
        · rw [if_pos h3]
          by_cases h4 : m = n
          · rw [if_pos h4]
            exact ⟨fun h => absurd (hm u h) (by omega), fun h => absurd h3 h.2⟩
          · rw [if_neg h4, List.mem_cons]
            exact ⟨Or.inr, fun h => h.resolve_left (fun h => by simp only [Prod.mk.injEq] at h; omega)⟩
        · rw [if_neg h3, List.mem_cons]
          by_cases h4 : m = n
          · rw [if_pos h4]
            subst h4
            constructor
            · rintro (h | h)
              · simp only [Prod.mk.injEq, true_and] at h; exact ⟨h, h3⟩
              · exact absurd (hm u h) (by omega)
            · rintro ⟨h, _⟩; left; rw [h]
          · rw [if_neg h4, List.mem_cons]
            simp only [Prod.mk.injEq, h4, false_and, false_or]
            exact ⟨Or.inr, fun h => h.resolve_left (fun h => by omega)⟩
      · rw [if_neg h2]
        by_cases h3 : t = []
        · rw [if_pos h3]
          by_cases h4 : m = n
          · rw [if_pos h4]
            refine ⟨fun h => ?_, fun h => absurd h3 h.2⟩
            rcases List.mem_cons.1 h with h | h
            · simp only [Prod.mk.injEq] at h; omega
            · have := hm u h; omega
          · rw [if_neg h4]
        · rw [if_neg h3, List.mem_cons]
          by_cases h4 : m = n
          · rw [if_pos h4]
            subst h4
            constructor
            · rintro (h | h)
              · simp only [Prod.mk.injEq, true_and] at h; exact ⟨h, h3⟩
              · rcases List.mem_cons.1 h with h | h
                · simp only [Prod.mk.injEq] at h; omega
                · have := hm u h; omega
            · rintro ⟨h, _⟩; left; rw [h]
          · rw [if_neg h4]
            simp only [Prod.mk.injEq, h4, false_and, false_or]

theorem sorted_enterAt (n : Nat) (t : List Tok) : ∀ {p : List Line}, Sorted p → Sorted (enterAt n t p) := by
  intro p
  induction p with
  | nil => intro _; unfold enterAt; split_ifs <;> simp [Sorted]
  | cons a p ih =>
    obtain ⟨k, w⟩ := a
    intro hp
    have hp' := List.pairwise_cons.1 hp
    unfold enterAt
    split_ifs with h1 h2 h3 h3
    · refine List.pairwise_cons.2 ⟨?_, ih hp'.2⟩
      rintro ⟨m, u⟩ hmu
      rw [mem_enterAt n t hp'.2] at hmu
      split_ifs at hmu with h
      · show k < m; omega
      · exact hp'.1 _ hmu
    · exact hp'.2
    · refine List.pairwise_cons.2 ⟨?_, hp'.2⟩
      intro x hx
      have := hp'.1 x hx
      show n < x.1
      simp only at this
      omega
    · exact hp
    · refine List.pairwise_cons.2 ⟨?_, hp⟩
      intro x hx
      show n < x.1
      rcases List.mem_cons.1 hx with h | h
      · rw [h]; show n < k; omega
      · have := hp'.1 x h
        simp only at this
        omega

theorem lastFor_snoc (n : Nat) (xs : List Line) (x : Line) :
    lastFor n (xs ++ [x]) = if x.1 = n then x.2 else lastFor n xs := by
  unfold lastFor
  by_cases h : x.1 = n
  · rw [if_pos h, List.filter_append]
    simp [h]
  · rw [if_neg h, List.filter_append]
    simp [h]

theorem entered (xs : List Line) : Sorted (xs.foldl enter []) ∧
    ∀ n t, (n, t) ∈ xs.foldl enter [] ↔ n ≠ 0 ∧ t ≠ [] ∧ t = lastFor n xs := by
  induction xs using List.reverseRecOn with
  | nil => exact ⟨List.Pairwise.nil, fun n t => by simp [lastFor]⟩
  | append_singleton xs x ih =>
    obtain ⟨hs, hm⟩ := ih
    rw [List.foldl_append]
    show Sorted (enter (xs.foldl enter []) x) ∧ ∀ n t, (n, t) ∈ enter (xs.foldl enter []) x ↔ _
    rw [show enter (xs.foldl enter []) x = if x.1 = 0 then xs.foldl enter [] else enterAt x.1 x.2 (xs.foldl enter []) from rfl]
    by_cases h0 : x.1 = 0
    · rw [if_pos h0]
      refine ⟨hs, fun n t => ?_⟩
      rw [hm, lastFor_snoc]
      by_cases hn : x.1 = n
      · rw [if_pos hn]
        exact ⟨fun h => absurd (hn ▸ h0) h.1, fun h => absurd (hn ▸ h0) h.1⟩
      · rw [if_neg hn]
    · rw [if_neg h0]
      refine ⟨sorted_enterAt _ _ hs, fun n t => ?_⟩
      rw [mem_enterAt _ _ hs, lastFor_snoc]
      by_cases hn : n = x.1
      · rw [if_pos hn, if_pos hn.symm]
        exact ⟨fun h => ⟨hn ▸ h0, h.1 ▸ h.2, h.1⟩, fun h => ⟨h.2.2, h.2.2 ▸ h.2.1⟩⟩
      · rw [if_neg hn, if_neg (Ne.symm hn)]
        exact hm n t

theorem sorted_ext : ∀ {p q : List Line}, Sorted p → Sorted q → (∀ x, x ∈ p ↔ x ∈ q) → p = q := by
  intro p
  induction p with
  | nil =>
    intro q _ _ h
    cases q with
    | nil => rfl
    | cons b q => exact absurd ((h b).2 (List.mem_cons_self ..)) (by simp)
  | cons a p ih =>
    intro q hp hq h
    cases q with
    | nil => exact absurd ((h a).1 (List.mem_cons_self ..)) (by simp)
    | cons b q =>
      have hp' := List.pairwise_cons.1 hp
      have hq' := List.pairwise_cons.1 hq
      have hab : a = b := by
        rcases List.mem_cons.1 ((h a).1 (List.mem_cons_self ..)) with h1 | h1
        · exact h1
        · rcases List.mem_cons.1 ((h b).2 (List.mem_cons_self ..)) with h2 | h2
          · exact h2.symm
          · have := hq'.1 a h1; have := hp'.1 b h2; omega
      subst hab
      rw [ih hp'.2 hq'.2]
      intro x
      constructor
      · intro hx
        rcases List.mem_cons.1 ((h x).1 (List.mem_cons_of_mem _ hx)) with h1 | h1
        · subst h1; exact absurd (hp'.1 _ hx) (by omega)
        · exact h1
      · intro hx
        rcases List.mem_cons.1 ((h x).2 (List.mem_cons_of_mem _ hx)) with h1 | h1
        · subst h1; exact absurd (hq'.1 _ hx) (by omega)
        · exact h1

theorem findline_mem {n : Nat} {t : List Tok} : ∀ {p : List Line}, Sorted p → (n, t) ∈ p →
    findline n p = some (t, p.filter fun x => n < x.1) := by
  intro p
  induction p with
  | nil => intro _ h; cases h
  | cons a p ih =>
    obtain ⟨k, w⟩ := a
    intro hp h
    have hp' := List.pairwise_cons.1 hp
    unfold findline
    rcases List.mem_cons.1 h with h1 | h1
    · simp only [Prod.mk.injEq] at h1
      obtain ⟨rfl, rfl⟩ := h1
      rw [if_pos rfl, List.filter_cons_of_neg (by simp), List.filter_eq_self.2]
      intro x hx
      exact decide_eq_true (hp'.1 x hx)
    · have hk : k < n := hp'.1 _ h1
      rw [if_neg (by omega), ih hp'.2 h1, List.filter_cons_of_neg (by simp; omega)]

theorem findline_none {n : Int} : ∀ {p : List Line}, (∀ x ∈ p, (x.1 : Int) ≠ n) → findline n p = none := by
  intro p
  induction p with
  | nil => intro _; rfl
  | cons a p ih =>
    intro h
    unfold findline
    rw [if_neg (h a (List.mem_cons_self ..)), ih (fun x hx => h x (List.mem_cons_of_mem _ hx))]

/-! ### Whole programs -/

theorem iter_less (L : Lib) (p : List Line) : ∀ {i j st st'}, iter L p j st = .ok (.go st') → i ≤ j →
    ∃ st'', iter L p i st = .ok (.go st'') := by
  intro i
  induction i with
  | zero => intro j st st' _ _; exact ⟨st, rfl⟩
  | succ i ih =>
    intro j st st' h hij
    obtain ⟨j, rfl⟩ : ∃ j', j = j' + 1 := ⟨j - 1, by omega⟩
    rw [iter] at h ⊢
    cases hs : step L p st with
    | error f => rw [hs] at h; cases h
    | ok x =>
      cases x with
      | halt e => rw [hs] at h; cases h
      | go st1 => rw [hs] at h; exact ih h (by omega)

theorem whole_program (L : Lib) {p : List Line} {main : Stm} {subs : Nat → Option Stm} (h : Layout p main subs) (n : Nat) :
    match Task.run L subs n (.stm main) cleared with
    | .done e => ∃ j, iter L p j (start p) = .ok (.halt e)
    | .bad => ∃ j, iter L p j (start p) = .error .bad
    | .more => ∃ j st, n ≤ j ∧ iter L p j (start p) = .ok (.go st) := by
  obtain ⟨⟨hc, m, t, r, k, hp, htext, hk⟩, hs⟩ := h
  have hfit : Fits main k := by
    rcases hk with rfl | ⟨s, q, hs, rfl⟩
    · exact fits_nil rfl
    · exact fits_put hs _
  have key := (tasks L p subs hs n).stm main k cleared [] hc hfit
  rw [htext] at key
  have hst : step L p (start p) = .ok (.go ⟨(t, r), cleared, []⟩) := by unfold start step; rw [hp]; rfl
  have key := Sim.before hst key
  cases hr : Task.run L subs n (.stm main) cleared with
  | done e =>
    rw [hr] at key
    obtain ⟨j, _, hj⟩ := key
    rcases hk with rfl | ⟨s, q, _, rfl⟩
    · exact ⟨j + 1, by rw [iter_add L p j 1 hj]; rfl⟩
    · rw [norm_put] at hj
      cases s with
      | colon => exact ⟨j + 1, by rw [iter_add L p j 1 hj]; rfl⟩
      | line n => exact ⟨j + 2, by rw [iter_add L p j 2 hj]; rfl⟩
  | bad =>
    rw [hr] at key
    obtain ⟨j, _, hj⟩ := key
    exact ⟨j, hj⟩
  | more =>
    rw [hr] at key
    obtain ⟨j, st, hn, hj⟩ := key
    exact ⟨j, st, by omega, hj⟩

/-! ### The bound on the turns does not matter -/

theorem bind_mono {r r' : Res} {f g : Env → Res} (hr : r ≠ .more → r' = r) (hf : ∀ e, f e ≠ .more → g e = f e) :
    r.bind f ≠ .more → r'.bind g = r.bind f := by
  intro h
  cases r with
  | done e => rw [hr (by simp)]; exact hf e h
  | bad => rw [hr (by simp)]; rfl
  | more => exact absurd rfl h

theorem does_mono (L : Lib) (subs : Nat → Option Stm) {f g : Task → Env → Res} (hfg : ∀ k e, f k e ≠ .more → g k e = f k e) (s : Stm) :
    ∀ e, s.does L subs f e ≠ .more → s.does L subs g e = s.does L subs f e := by
  induction s with
  | rem => intro e _; rfl
  | let_ kw v x => intro e _; rfl
  | save x => intro e _; rfl
  | punch x => intro e _; rfl
  | seq a s b iha ihb => intro e; exact bind_mono (iha e) ihb
  | ifThen c a ih =>
    intro e h
    unfold Stm.does at h ⊢
    cases hc : c.number L e with
    | none => rfl
    | some r =>
      rw [hc] at h
      simp only at h ⊢
      split_ifs at h ⊢
      · rfl
      · exact ih e h
  | ifElse c a b iha ihb =>
    intro e h
    unfold Stm.does at h ⊢
    cases hc : c.number L e with
    | none => rfl
    | some r =>
      rw [hc] at h
      simp only at h ⊢
      split_ifs at h ⊢
      · exact ihb e h
      · exact iha e h
  | for_ v x y z s₁ body s₂ named ih =>
    intro e h
    unfold Stm.does at h ⊢
    cases hc : x.number L e with
    | none => rfl
    | some first =>
      rw [hc] at h
      simp only at h ⊢
      refine bind_mono (fun _ => rfl) ?_ h
      intro e'
      cases y.number L e' with
      | none => intro _; rfl
      | some last =>
        cases (z.getD (.num 1)).number L e' with
        | none => intro _; rfl
        | some by_ =>
          simp only
          split_ifs
          · intro _; rfl
          · exact bind_mono (ih e') (fun e => hfg _ e)
  | while_ c s₁ body s₂ ih =>
    intro e h
    unfold Stm.does at h ⊢
    cases hc : c.number L e with
    | none => rfl
    | some r =>
      rw [hc] at h
      simp only at h ⊢
      split_ifs at h ⊢
      · rfl
      · exact bind_mono (ih e) (fun e => hfg _ e) h
  | gosub n =>
    intro e h
    unfold Stm.does at h ⊢
    cases hs : subs n with
    | none => rfl
    | some b => rw [hs] at h; exact hfg _ e h

theorem run_mono (L : Lib) (subs : Nat → Option Stm) (n : Nat) : ∀ k e, Task.run L subs n k e ≠ .more →
    Task.run L subs (n + 1) k e = Task.run L subs n k e := by
  induction n with
  | zero => intro k e h; exact absurd rfl h
  | succ n ih =>
    intro k e h
    cases k with
    | stm s => exact does_mono L subs ih s e h
    | turn v last by_ body =>
      refine bind_mono (fun _ => rfl) ?_ h
      intro e'
      split_ifs
      · intro _; rfl
      · exact bind_mono (does_mono L subs ih body e') (fun e => ih _ e)
    | again c body =>
      unfold Task.run at h ⊢
      cases hc : c.number L e with
      | none => rfl
      | some r =>
        rw [hc] at h
        simp only at h ⊢
        split_ifs at h ⊢
        · rfl
        · exact bind_mono (does_mono L subs ih body e) (fun e => ih _ e) h

end Verif.Basic
