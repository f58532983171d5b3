import Verif.Lemmas.Basic2
/-
Helper lemmas for C121: an expression written by precedence is read back as its value.
-/
namespace Verif.Basic

/-- The loops of the functions `l + k - 1`, ..., `l` one after another. -/
def lps (L : Lib) (e : Env) (l : Nat) : Nat → Val → List Tok → R (Val × List Tok)
  | 0, v, t => .ok (v, t)
  | k + 1, v, t => (lps L e (l + 1) k v t).bind fun p => ch L e l p.1 p.2

theorem bind_assoc' {α β γ : Type} (x : R α) (f : α → R β) (g : β → R γ) :
    (x.bind f).bind g = x.bind fun a => (f a).bind g := by cases x <;> rfl

theorem rd_bind (L : Lib) (e : Env) {l t} (hl : l < 6) : rd L e l t = (rd L e (l + 1) t).bind fun p => ch L e l p.1 p.2 := by
  rw [rd_lt L e hl]
  cases rd L e (l + 1) t <;> rfl

theorem rd_lps (L : Lib) (e : Env) (t) : ∀ k l, l + k = 6 → rd L e l t = (rd L e 6 t).bind fun p => lps L e l k p.1 p.2 := by
  intro k
  induction k with
  | zero =>
    intro l h
    have : l = 6 := by omega
    subst this
    cases rd L e 6 t <;> rfl
  | succ k ih =>
    intro l h
    rw [rd_bind L e (by omega), ih (l + 1) (by omega), bind_assoc']
    rfl

theorem lps_top (L : Lib) (e : Env) (v t) : ∀ k l, lps L e l (k + 1) v t = (ch L e (l + k) v t).bind fun p => lps L e l k p.1 p.2 := by
  intro k
  induction k with
  | zero =>
    intro l
    have : lps L e l (0 + 1) v t = ch L e l v t := rfl
    rw [this]
    simp only [Nat.add_zero]
    cases ch L e l v t <;> rfl
  | succ k ih =>
    intro l
    rw [lps, ih (l + 1), bind_assoc']
    have : l + 1 + k = l + (k + 1) := by omega
    rw [this]
    rfl

theorem lps_idle (L : Lib) (e : Env) {m v t} (h : ∀ o, t.head? = some (.op o) → lv o ≤ m) (l k) (hk : m < l + k) :
    ∀ j, lps L e l (k + j) v t = lps L e l k v t := by
  intro j
  induction j with
  | zero => rfl
  | succ j ih =>
    rw [← Nat.add_assoc, lps_top, ch_stop L e (fun o ho => by have := h o ho; omega)]
    exact ih

/-- The text that follows an expression written for precedence `m`. -/
structure After (m : Nat) (t : List Tok) : Prop where
  lp : t.head? ≠ some .lp
  le : ∀ o, t.head? = some (.op o) → lv o ≤ m
  up : ∀ o, t.head? = some (.op o) → o = .up → m = 6

theorem After.top {m t} (h : After m t) (hm : m ≤ 6) : After 6 t :=
  ⟨h.lp, fun o ho => by have := h.le o ho; omega, fun _ _ _ => rfl⟩

theorem lps_after (L : Lib) (e : Env) {m n v t} (h : After m t) {l} (hl : l ≤ m) (hn : m ≤ n) (hn6 : n ≤ 6) :
    lps L e l (min (n + 1) 6 - l) v t = lps L e l (min (m + 1) 6 - l) v t := by
  have := lps_idle L e (v := v) (m := min m 5) (t := t) (fun o ho => by
    have := h.le o ho
    have : lv o ≤ 5 := by cases o <;> simp [lv]
    omega) l (min (m + 1) 6 - l) (by omega) (min (n + 1) 6 - min (m + 1) 6)
  rw [← this]
  congr 1
  omega

/-- What is proved of an expression. -/
def Reads (L : Lib) (e : Env) (x : Ex) : Prop :=
  ∀ m l rest, m ≤ 6 → l ≤ m → After m rest →
    rd L e l (x.text m ++ rest) = (toR (x.val L e)).bind fun v => lps L e l (min (m + 1) 6 - l) v rest

theorem reads_factor (L : Lib) (e : Env) {x : Ex} {t : List Tok} {l m rest} (hm : m ≤ 6) (hl : l ≤ m) (h : After m rest)
    (h6 : rd L e 6 t = (toR (x.val L e)).bind fun v => .ok (v, rest)) :
    rd L e l t = (toR (x.val L e)).bind fun v => lps L e l (min (m + 1) 6 - l) v rest := by
  rw [rd_lps L e t (6 - l) l (by omega), h6, bind_assoc']
  congr 1
  funext v
  have := lps_after L e (v := v) h hl hm (le_refl 6)
  rw [← this]
  rfl

theorem reads_bare (L : Lib) (e : Env) {o : Op} {x y : Ex} (hx : Reads L e x) (hy : Reads L e y) {m l rest} (hm : m ≤ prec o)
    (hl : l ≤ m) (h : After m rest) :
    rd L e l (x.text (leftPrec o) ++ .op o :: (y.text (rightPrec o) ++ rest)) =
      (toR ((Ex.bin o x y).val L e)).bind fun v => lps L e l (min (m + 1) 6 - l) v rest := by
  have hp : prec o ≤ 5 := by cases o <;> simp [prec]
  have hne : ∀ o', rest.head? = some (.op o') → o' ≠ .up := fun o' ho' q => by have := h.up o' ho' q; omega
  by_cases hu : o = .up
  · subst hu
    have e1 : leftPrec .up = 6 := rfl
    have e2 : rightPrec .up = 5 := rfl
    have e3 : prec .up = 5 := rfl
    rw [e3] at hm
    rw [e1, e2, hx 6 l _ (le_refl 6) (by omega) ⟨by simp, fun o ho => by simp at ho; subst ho; simp [lv], fun _ _ _ => rfl⟩]
    simp only [Ex.val]
    cases x.val L e with
    | none => rfl
    | some a =>
      simp only [toR, Option.bind_some, Except.bind]
      obtain ⟨k, hk⟩ : ∃ k, min (6 + 1) 6 - l = k + 1 := ⟨5 - l, by omega⟩
      rw [hk, lps_top, show l + k = 5 by omega, ch_op L e (o := .up) (l := 5) rfl (by omega), show rightLv 5 = 5 from rfl,
        hy 5 5 rest (by omega) (le_refl 5) ⟨h.lp, fun o' ho' => by have := h.le o' ho'; omega, fun o' ho' q => absurd q (hne o' ho')⟩]
      cases y.val L e with
      | none => rfl
      | some b =>
        have stop : ∀ v, ch L e 5 v rest = .ok (v, rest) := fun v => ch_stop L e (fun o' ho' q => by
          have := hne o' ho'; revert q; cases o' <;> simp_all [lv])
        have i1 : lps L e 5 (min (5 + 1) 6 - 5) b rest = .ok (b, rest) := by
          show ch L e 5 b rest = _
          exact stop b
        simp only [toR, Option.bind_some, Except.bind, i1, apply_meaning]
        cases meaning L .up a b with
        | none => rfl
        | some c =>
          simp only [stop]
          have h5 : After 5 rest → lps L e l k c rest = lps L e l (min (m + 1) 6 - l) c rest := fun _ => by
            by_cases hm5 : m = 5
            · subst hm5
              have := lps_top L e c rest k l
              rw [show l + k = 5 by omega, stop] at this
              rw [show min (5 + 1) 6 - l = k + 1 by omega, this]; rfl
            · have := lps_after L e (v := c) (n := 4) h hl (by omega) (by omega)
              rw [← this]; congr 1; omega
          exact h5 ⟨h.lp, fun o' ho' => by have := h.le o' ho'; omega, fun o' ho' q => absurd q (hne o' ho')⟩
  · have e1 : leftPrec o = prec o := if_neg hu
    have e2 : rightPrec o = prec o + 1 := if_neg hu
    have hp4 : prec o ≤ 4 := by revert hu; cases o <;> simp [prec]
    rw [e1, e2, hx (prec o) l _ (by omega) (by omega)
      ⟨by simp, fun o' ho' => by simp at ho'; subst ho'; rw [lv_prec], fun o' ho' q => by simp at ho'; subst ho'; exact absurd q hu⟩]
    simp only [Ex.val]
    cases x.val L e with
    | none => rfl
    | some a =>
      simp only [toR, Option.bind_some, Except.bind]
      obtain ⟨k, hk⟩ : ∃ k, min (prec o + 1) 6 - l = k + 1 := ⟨prec o - l, by omega⟩
      rw [hk, lps_top, show l + k = prec o by omega, ch_op L e (o := o) (lv_prec o) (by omega),
        show rightLv (prec o) = prec o + 1 from if_neg (by omega),
        hy (prec o + 1) (prec o + 1) rest (by omega) (le_refl _)
          ⟨h.lp, fun o' ho' => by have := h.le o' ho'; omega, fun o' ho' q => absurd q (hne o' ho')⟩]
      cases y.val L e with
      | none => rfl
      | some b =>
        have i1 : lps L e (prec o + 1) (min (prec o + 1 + 1) 6 - (prec o + 1)) b rest = .ok (b, rest) := by
          rw [show min (prec o + 1 + 1) 6 - (prec o + 1) = 1 by omega]
          show ch L e (prec o + 1) b rest = _
          exact ch_stop L e (fun o' ho' => by have := h.le o' ho'; omega)
        simp only [toR, Option.bind_some, Except.bind, i1, apply_meaning]
        cases meaning L o a b with
        | none => rfl
        | some c =>
          have := lps_after L e (v := c) (n := prec o) h hl (by omega) (by omega)
          simp only
          rw [← this, hk, lps_top, show l + k = prec o by omega]
          cases ch L e (prec o) c rest <;> rfl

theorem reads (L : Lib) (e : Env) (x : Ex) : Reads L e x := by
  induction x with
  | num r =>
    intro m l rest hm hl h
    exact reads_factor L e hm hl h (by simp only [Ex.text, List.cons_append, List.nil_append]; rw [rd_num]; rfl)
  | str s =>
    intro m l rest hm hl h
    exact reads_factor L e hm hl h (by simp only [Ex.text, List.cons_append, List.nil_append]; rw [rd_str]; rfl)
  | var v =>
    intro m l rest hm hl h
    exact reads_factor L e hm hl h (by simp only [Ex.text, List.cons_append, List.nil_append]; rw [rd_var L e _ _ h.lp]; rfl)
  | neg x ih =>
    intro m l rest hm hl h
    refine reads_factor L e hm hl h ?_
    simp only [Ex.text, List.cons_append]
    rw [rd_sign L e (Or.inl rfl), ih 6 6 rest (le_refl 6) (le_refl 6) (h.top hm)]
    simp only [Ex.val]
    cases x.val L e with
    | none => rfl
    | some a => cases a <;> rfl
  | pos x ih =>
    intro m l rest hm hl h
    refine reads_factor L e hm hl h ?_
    simp only [Ex.text, List.cons_append]
    rw [rd_sign L e (Or.inr rfl), ih 6 6 rest (le_refl 6) (le_refl 6) (h.top hm)]
    simp only [Ex.val]
    cases x.val L e with
    | none => rfl
    | some a => cases a <;> rfl
  | fn f x ih =>
    intro m l rest hm hl h
    refine reads_factor L e hm hl h ?_
    simp only [Ex.text, List.cons_append]
    rw [rd_fn, ih 6 6 rest (le_refl 6) (le_refl 6) (h.top hm)]
    simp only [Ex.val]
    cases x.val L e with
    | none => rfl
    | some a =>
      simp only [toR, Option.bind_some, Except.bind]
      have : lps L e 6 (min (6 + 1) 6 - 6) a rest = .ok (a, rest) := rfl
      rw [this]
      simp only [applyFn_meaning]
      cases fnMeaning L f a <;> rfl
  | bin o x y hx hy =>
    intro m l rest hm hl h
    by_cases hb : m ≤ prec o
    · have : (Ex.bin o x y).text m = x.text (leftPrec o) ++ .op o :: y.text (rightPrec o) := by rw [Ex.text, if_pos hb]
      rw [this, List.append_assoc, List.cons_append]
      exact reads_bare L e hx hy hb hl h
    · have : (Ex.bin o x y).text m = .lp :: (x.text (leftPrec o) ++ .op o :: y.text (rightPrec o)) ++ [.rp] := by
        rw [Ex.text, if_neg hb]
      rw [this]
      refine reads_factor L e hm hl h ?_
      have e1 : .lp :: (x.text (leftPrec o) ++ .op o :: y.text (rightPrec o)) ++ [Tok.rp] ++ rest =
          .lp :: (x.text (leftPrec o) ++ .op o :: (y.text (rightPrec o) ++ .rp :: rest)) := by simp
      rw [e1, rd_lp, reads_bare L e hx hy (m := 0) (l := 0) (Nat.zero_le _) (le_refl 0)
        ⟨by simp, fun o ho => by simp at ho, fun o ho => by simp at ho⟩]
      cases (Ex.bin o x y).val L e with
      | none => rfl
      | some a =>
        have : lps L e 0 (min (0 + 1) 6 - 0) a (.rp :: rest) = .ok (a, .rp :: rest) := by
          show ch L e 0 a (.rp :: rest) = _
          exact ch_stop L e (fun o ho => by simp at ho)
        simp only [toR, Except.bind, this, close]

theorem expr_text (L : Lib) (e : Env) (x : Ex) (rest : List Tok) (h : Ends rest) :
    expr L e (x.text 0 ++ rest) = (toR (x.val L e)).map fun v => (v, rest) := by
  have hd : ∀ o, rest.head? ≠ some (.op o) := by
    intro o ho
    cases rest with
    | nil => simp at ho
    | cons a t => simp at ho; subst ho; exact h
  have hlp : rest.head? ≠ some .lp := by
    intro ho
    cases rest with
    | nil => simp at ho
    | cons a t => simp at ho; subst ho; exact h
  have := reads L e x 0 0 rest (by omega) (le_refl 0) ⟨hlp, fun o ho => absurd ho (hd o), fun o ho => absurd ho (hd o)⟩
  have e0 : expr L e (x.text 0 ++ rest) = rd L e 0 (x.text 0 ++ rest) := rfl
  rw [e0, this]
  cases x.val L e with
  | none => rfl
  | some a =>
    show ch L e 0 a rest = _
    exact ch_stop L e (fun o ho => absurd ho (hd o))

end Verif.Basic
