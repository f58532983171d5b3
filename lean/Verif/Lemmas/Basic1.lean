import Verif.Model.Basic
import Mathlib.Tactic.SplitIfs
/-
Helper lemmas for C121: the bound of the recursion of the expression reader is never used up, so that the functions satisfy
the equations of the code without it.
-/
namespace Verif.Basic

theorem close_shorter {p : Val × List Tok} {v t} (h : close p = .ok (v, t)) : t.length < p.2.length := by
  obtain ⟨a, u⟩ := p
  unfold close at h
  split at h
  · rename_i heq; cases heq; cases h; simp
  · cases h

theorem map_pair {r : R Val} {t u : List Tok} {v : Val} (h : (r.map fun v => (v, t)) = .ok (v, u)) : u = t ∧ r = .ok v := by
  cases r with
  | error f => simp [Except.map] at h
  | ok w => simp only [Except.map, Except.ok.injEq, Prod.mk.injEq] at h; exact ⟨h.2.symm, by rw [h.1]⟩

theorem eat_succ (L : Lib) (e : Env) (n l t) : eat L e (n + 1) l t =
    if l < 6 then
      match eat L e n (l + 1) t with
      | .error f => .error f
      | .ok (a, t) => chain L e n l a t
    else factor L e (eat L e n 0) (eat L e n 6) t := by rw [eat]; rfl

theorem chain_succ (L : Lib) (e : Env) (n l a t) :
    chain L e (n + 1) l a t = link L l (eat L e n (rightLv l)) (chain L e n l) a t := by rw [chain]

theorem shorter (L : Lib) (e : Env) : ∀ n,
    (∀ l t v u, eat L e n l t = .ok (v, u) → u.length < t.length) ∧
    (∀ l a t v u, chain L e n l a t = .ok (v, u) → u.length ≤ t.length) := by
  intro n
  induction n with
  | zero => exact ⟨fun l t v u h => by simp [eat] at h, fun l a t v u h => by simp [chain] at h⟩
  | succ n ih =>
    obtain ⟨iA, iB⟩ := ih
    constructor
    · intro l t v u h
      rw [eat] at h
      split_ifs at h with hl
      · split at h
        · cases h
        · rename_i a t1 h1
          have := iA _ _ _ _ h1
          have := iB _ _ _ _ _ h
          omega
      · unfold factor at h
        split at h
        · cases h; simp
        · cases h; simp
        · split_ifs at h <;> (cases h; simp)
        · split at h
          · cases h
          · rename_i p h1
            have := iA _ _ _ _ h1
            have := close_shorter h
            simp; omega
        · split_ifs at h
          · split at h
            · cases h
            · rename_i a t1 h1
              have := iA _ _ _ _ h1
              have := (map_pair h).1
              subst this
              simp; omega
        · split at h
          · cases h
          · rename_i a t1 h1
            have := iA _ _ _ _ h1
            have := (map_pair h).1
            subst this
            simp; omega
        · cases h
    · intro l a t v u h
      rw [chain] at h
      unfold link at h
      split at h
      · rename_i o t'
        split_ifs at h with hl
        · split at h
          · cases h
          · rename_i b t'' h1
            have := iA _ _ _ _ h1
            split at h
            · cases h
            · have := iB _ _ _ _ _ h
              simp; omega
        · cases h; simp
      · cases h; simp

theorem applySign_dry (o v) : applySign o v ≠ .error .dry := by
  unfold applySign; split <;> simp

theorem applyFn_dry (L f v) : applyFn L f v ≠ .error .dry := by
  unfold applyFn; split <;> simp

theorem raise_dry (L x y) : raise L x y ≠ .error .dry := by
  unfold raise; split_ifs <;> simp

theorem apply_dry (L o a b) : apply L o a b ≠ .error .dry := by
  unfold apply
  split <;> simp
  rename_i a b
  have := raise_dry L a b
  cases h : raise L a b <;> simp_all [Except.map]

theorem close_dry (p) : close p ≠ .error .dry := by
  unfold close; split <;> simp

theorem map_dry {r : R Val} {f : Val → Val × List Tok} (h : r ≠ .error .dry) : r.map f ≠ .error .dry := by
  cases r <;> simp_all [Except.map]

/-- With enough for the list the bound does not matter. -/
theorem enough (L : Lib) (e : Env) : ∀ n,
    (∀ l t, l ≤ 6 → 10 * t.length + 7 - l ≤ n → eat L e n l t ≠ .error .dry ∧ eat L e (n + 1) l t = eat L e n l t) ∧
    (∀ l a t, l < 6 → 10 * t.length + 8 ≤ n → chain L e n l a t ≠ .error .dry ∧ chain L e (n + 1) l a t = chain L e n l a t) := by
  intro n
  induction n with
  | zero => exact ⟨fun l t hl h => by omega, fun l a t hl h => by omega⟩
  | succ n ih =>
    obtain ⟨iA, iB⟩ := ih
    constructor
    · intro l t hl h
      rw [eat_succ, eat_succ L e (n + 1)]
      by_cases h6 : l < 6
      · rw [if_pos h6, if_pos h6]
        obtain ⟨d, q⟩ := iA (l + 1) t (by omega) (by omega)
        rw [q]
        cases h1 : eat L e n (l + 1) t with
        | error f => exact ⟨by simpa [h1] using d, rfl⟩
        | ok p =>
          obtain ⟨a, t1⟩ := p
          have := (shorter L e n).1 _ _ _ _ h1
          exact iB l a t1 h6 (by omega)
      · rw [if_neg h6, if_neg h6]
        unfold factor
        split
        · simp
        · simp
        · split_ifs <;> simp
        · rename_i t
          simp only [List.length_cons] at h
          obtain ⟨d, q⟩ := iA 0 t (by omega) (by omega)
          rw [q]
          cases h1 : eat L e n 0 t with
          | error f => exact ⟨by simpa [h1] using d, rfl⟩
          | ok p => exact ⟨close_dry p, rfl⟩
        · rename_i o t
          simp only [List.length_cons] at h
          split_ifs
          · obtain ⟨d, q⟩ := iA 6 t (by omega) (by omega)
            rw [q]
            cases h1 : eat L e n 6 t with
            | error f => exact ⟨by simpa [h1] using d, rfl⟩
            | ok p => exact ⟨map_dry (applySign_dry _ _), rfl⟩
          · simp
        · rename_i f t
          simp only [List.length_cons] at h
          obtain ⟨d, q⟩ := iA 6 t (by omega) (by omega)
          rw [q]
          cases h1 : eat L e n 6 t with
          | error f => exact ⟨by simpa [h1] using d, rfl⟩
          | ok p => exact ⟨map_dry (applyFn_dry _ _ _), rfl⟩
        · simp
    · intro l a t hl h
      rw [chain_succ, chain_succ L e (n + 1)]
      unfold link
      split
      · rename_i o t'
        simp only [List.length_cons] at h
        split_ifs with ho
        · have hr : rightLv l ≤ 6 := by unfold rightLv; split_ifs <;> omega
          obtain ⟨d, q⟩ := iA (rightLv l) t' hr (by omega)
          rw [q]
          cases h1 : eat L e n (rightLv l) t' with
          | error f => exact ⟨by simpa [h1] using d, rfl⟩
          | ok p =>
            obtain ⟨b, t''⟩ := p
            have := (shorter L e n).1 _ _ _ _ h1
            simp only
            cases h2 : apply L o a b with
            | error f =>
              have := apply_dry L o a b
              exact ⟨by simpa [h2] using this, rfl⟩
            | ok c => exact iB l c t'' hl (by omega)
        · simp
      · simp

/-- The reader without the bound. -/
def rd (L : Lib) (e : Env) (l : Nat) (t : List Tok) : R (Val × List Tok) := eat L e (fuel t) l t

/-- The loop without the bound. -/
def ch (L : Lib) (e : Env) (l : Nat) (a : Val) (t : List Tok) : R (Val × List Tok) := chain L e (fuel t) l a t

theorem eat_rd (L : Lib) (e : Env) {l t n} (hl : l ≤ 6) (h : 10 * t.length + 7 - l ≤ n) : eat L e n l t = rd L e l t := by
  have up : ∀ k m, 10 * t.length + 7 - l ≤ m → eat L e (m + k) l t = eat L e m l t := by
    intro k
    induction k with
    | zero => intro m _; rfl
    | succ k ih =>
      intro m hm
      rw [← Nat.add_assoc, ((enough L e (m + k)).1 l t hl (by omega)).2, ih m hm]
  unfold rd
  rcases Nat.le_total n (fuel t) with q | q
  · obtain ⟨k, hk⟩ := Nat.exists_eq_add_of_le q
    rw [hk, up k n h]
  · obtain ⟨k, hk⟩ := Nat.exists_eq_add_of_le q
    rw [hk, up k (fuel t) (by unfold fuel; omega)]

theorem chain_ch (L : Lib) (e : Env) {l a t n} (hl : l < 6) (h : 10 * t.length + 8 ≤ n) : chain L e n l a t = ch L e l a t := by
  have up : ∀ k m, 10 * t.length + 8 ≤ m → chain L e (m + k) l a t = chain L e m l a t := by
    intro k
    induction k with
    | zero => intro m _; rfl
    | succ k ih =>
      intro m hm
      rw [← Nat.add_assoc, ((enough L e (m + k)).2 l a t hl (by omega)).2, ih m hm]
  unfold ch
  rcases Nat.le_total n (fuel t) with q | q
  · obtain ⟨k, hk⟩ := Nat.exists_eq_add_of_le q
    rw [hk, up k n h]
  · obtain ⟨k, hk⟩ := Nat.exists_eq_add_of_le q
    rw [hk, up k (fuel t) (by unfold fuel; omega)]

theorem rd_dry (L : Lib) (e : Env) {l t} (hl : l ≤ 6) : rd L e l t ≠ .error .dry :=
  ((enough L e (fuel t)).1 l t hl (by unfold fuel; omega)).1

/-- The equation of the six functions. -/
theorem rd_lt (L : Lib) (e : Env) {l t} (hl : l < 6) :
    rd L e l t = match rd L e (l + 1) t with | .error f => .error f | .ok (a, t) => ch L e l a t := by
  have h0 : rd L e l t = eat L e (10 * t.length + 8 + 1) l t := rfl
  rw [h0, eat, if_pos hl, eat_rd L e (by omega) (by omega)]
  cases h : rd L e (l + 1) t with
  | error f => rfl
  | ok p =>
    obtain ⟨a, u⟩ := p
    have := (shorter L e _).1 _ _ _ _ h
    exact chain_ch L e hl (by omega)

theorem rd_num (L : Lib) (e : Env) (r t) : rd L e 6 (.num r :: t) = .ok (.num r, t) := by
  simp [rd, fuel, eat, factor]

theorem rd_str (L : Lib) (e : Env) (s t) : rd L e 6 (.str s :: t) = .ok (.str s, t) := by
  simp [rd, fuel, eat, factor]

theorem rd_var (L : Lib) (e : Env) (v t) (h : t.head? ≠ some .lp) :
    rd L e 6 (.var v :: t) = .ok (if v.str then .str (e.str v) else .num (e.num v), t) := by
  unfold rd fuel
  rw [eat, if_neg (by omega), factor, if_neg h]

theorem rd_lp (L : Lib) (e : Env) (t) :
    rd L e 6 (.lp :: t) = match rd L e 0 t with | .error f => .error f | .ok p => close p := by
  unfold rd fuel
  rw [eat, if_neg (by omega), factor]
  simp only [List.length_cons]
  rw [eat_rd L e (t := t) (by omega) (by omega)]
  rfl

theorem rd_sign (L : Lib) (e : Env) {o} (ho : o = .minus ∨ o = .plus) (t) :
    rd L e 6 (.op o :: t) =
      match rd L e 6 t with | .error f => .error f | .ok (a, t) => (applySign o a).map fun v => (v, t) := by
  unfold rd fuel
  rw [eat, if_neg (by omega), factor]
  simp only [List.length_cons, if_pos ho]
  rw [eat_rd L e (t := t) (by omega) (by omega)]
  rfl

theorem rd_fn (L : Lib) (e : Env) (f t) :
    rd L e 6 (.fn f :: t) =
      match rd L e 6 t with | .error x => .error x | .ok (a, t) => (applyFn L f a).map fun v => (v, t) := by
  unfold rd fuel
  rw [eat, if_neg (by omega), factor]
  simp only [List.length_cons]
  rw [eat_rd L e (t := t) (by omega) (by omega)]
  rfl

theorem ch_op (L : Lib) (e : Env) {o l} (ho : lv o = l) (hl : l < 6) (a t) :
    ch L e l a (.op o :: t) =
      match rd L e (rightLv l) t with
      | .error f => .error f
      | .ok (b, u) => match apply L o a b with | .error f => .error f | .ok c => ch L e l c u := by
  have h0 : ch L e l a (.op o :: t) = chain L e (10 * (t.length + 1) + 8 + 1) l a (.op o :: t) := rfl
  have hr : rightLv l ≤ 6 := by unfold rightLv; split_ifs <;> omega
  rw [h0, chain, link]
  simp only [if_pos ho]
  rw [eat_rd L e (t := t) hr (by omega)]
  cases h : rd L e (rightLv l) t with
  | error f => rfl
  | ok p =>
    obtain ⟨b, u⟩ := p
    simp only
    cases h2 : apply L o a b with
    | error f => rfl
    | ok c =>
      have := (shorter L e _).1 _ _ _ _ h
      exact chain_ch L e hl (by omega)

/-- The loop stops at a token that is not one of its operators. -/
theorem ch_stop (L : Lib) (e : Env) {l a t} (h : ∀ o, t.head? = some (.op o) → lv o ≠ l) : ch L e l a t = .ok (a, t) := by
  unfold ch fuel
  rw [chain]
  unfold link
  split
  · rename_i o t'
    rw [if_neg (h o rfl)]
  · rfl

end Verif.Basic
