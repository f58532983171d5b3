import Verif.Lemmas.BasicRun1
/-
Helper lemmas for C123: what one turn of the interpreter does with each kind of statement.
-/
namespace Verif.Basic

theorem ends_eos {t : List Tok} (h : iseos t = true) : Ends t := by
  cases t with
  | nil => trivial
  | cons a t => cases a <;> first | trivial | (simp [iseos] at h)

theorem realexpr_text (L : Lib) (e : Env) (x : Ex) (rest : List Tok) (h : Ends rest) :
    realexpr L e (x.text 0 ++ rest) = (toR (x.number L e)).map fun r => (r, rest) := by
  unfold realexpr Ex.number
  rw [expr_text L e x rest h]
  cases x.val L e with
  | none => rfl
  | some a => cases a <;> rfl

theorem step_tok (L : Lib) (p : List Line) {a : Tok} (ha : a ≠ .colon) (t m e ls) :
    step L p ⟨(a :: t, m), e, ls⟩ = statement L p ⟨(a :: t, m), e, ls⟩ a t := by
  have : dropcolons (a :: t) = a :: t := by
    cases a <;> first | exact absurd rfl ha | rfl
  unfold step
  simp only [this]

theorem step_colon (L : Lib) (p : List Line) (t m e ls) : step L p ⟨(.colon :: t, m), e, ls⟩ = step L p ⟨(t, m), e, ls⟩ := by
  unfold step
  have : dropcolons (.colon :: t) = dropcolons t := rfl
  simp only [this]
  cases dropcolons t with
  | nil => rfl
  | cons k u => cases k <;> rfl

theorem step_line (L : Lib) (p : List Line) (n t m e ls) :
    step L p ⟨([], (n, t) :: m), e, ls⟩ = .ok (.go ⟨(t, m), e, ls⟩) := rfl

/-- The outcome of a statement that ends in one turn. -/
def one (r : Res) (k : Pos) (ls : List Loop) : R Next :=
  match r with
  | .done e => .ok (.go ⟨k, e, ls⟩)
  | _ => .error .bad

theorem finish_eos {s : St} (h : iseos s.pos.1 = true) : finish s = .ok (.go s) := if_pos h

theorem eos_lp {t : List Tok} (h : iseos t = true) : t.head? ≠ some .lp := by
  cases t with
  | nil => simp
  | cons a t => cases a <;> first | (simp; done) | (simp [iseos] at h)

theorem require_self (k : Tok) (t) : require k (k :: t) = .ok t := by
  unfold require; exact if_pos rfl

theorem step_rem (L : Lib) (p : List Line) (k : Pos) (hk : iseos k.1 = true) (e ls) :
    step L p ⟨Stm.rem.text k, e, ls⟩ = .ok (.go ⟨k, e, ls⟩) := by
  have : step L p ⟨Stm.rem.text k, e, ls⟩ = step L p ⟨(.rem :: k.1, k.2), e, ls⟩ := rfl
  rw [this, step_tok L p (by simp)]
  exact finish_eos (s := ⟨(k.1, k.2), e, ls⟩) hk

theorem cmdlet_text (L : Lib) (v : Var) (x : Ex) (k : Pos) (hk : iseos k.1 = true) (q e ls) :
    cmdlet L ⟨(q, k.2), e, ls⟩ (.var v :: .op .eq :: (x.text 0 ++ k.1)) =
      one (match x.val L e with | none => .bad | some a => assign v e a) k ls := by
  unfold cmdlet
  have h1 : findvar (.var v :: .op .eq :: (x.text 0 ++ k.1)) = .ok (v, .op .eq :: (x.text 0 ++ k.1)) := by
    unfold findvar; exact if_neg (by simp)
  have h2 : require (.op .eq) (.op .eq :: (x.text 0 ++ k.1)) = .ok (x.text 0 ++ k.1) := require_self _ _
  simp only [h1, bind, Except.bind, h2, expr_text L e x k.1 (ends_eos hk)]
  cases x.val L e with
  | none => rfl
  | some a =>
    cases a with
    | num r =>
      simp only [toR, Except.map, assign]
      split_ifs
      · rfl
      · exact finish_eos hk
    | str w =>
      simp only [toR, Except.map, assign]
      split_ifs
      · exact finish_eos hk
      · rfl

theorem step_let (L : Lib) (p : List Line) (kw : Bool) (v : Var) (x : Ex) (k : Pos) (hk : iseos k.1 = true) (e ls) :
    step L p ⟨(Stm.let_ kw v x).text k, e, ls⟩ = one (match x.val L e with | none => .bad | some a => assign v e a) k ls := by
  cases kw with
  | false =>
    have : step L p ⟨(Stm.let_ false v x).text k, e, ls⟩ = step L p ⟨(.var v :: .op .eq :: (x.text 0 ++ k.1), k.2), e, ls⟩ := rfl
    rw [this, step_tok L p (by simp)]
    exact cmdlet_text L v x k hk _ e ls
  | true =>
    have : step L p ⟨(Stm.let_ true v x).text k, e, ls⟩ =
      step L p ⟨(.let_ :: .var v :: .op .eq :: (x.text 0 ++ k.1), k.2), e, ls⟩ := rfl
    rw [this, step_tok L p (by simp)]
    exact cmdlet_text L v x k hk _ e ls

theorem text_head (x : Ex) (m : Nat) : ∃ a t, x.text m = a :: t ∧ Plain a := by
  have hne : x.text m ≠ [] := by
    cases x with
    | bin o x y => rw [Ex.text]; split_ifs <;> simp
    | _ => simp [Ex.text]
  cases h : x.text m with
  | nil => exact absurd h hne
  | cons a t => exact ⟨a, t, rfl, plain_text x m a (by rw [h]; simp)⟩

theorem plain_not_eos {a : Tok} (h : Plain a) (t) : iseos (a :: t) = false := by
  cases a <;> first | rfl | exact h.elim

theorem text_not_eos (x : Ex) (m : Nat) (t : List Tok) : iseos (x.text m ++ t) = false := by
  obtain ⟨a, u, h, hp⟩ := text_head x m
  rw [h, List.cons_append]
  exact plain_not_eos hp _

theorem items_eos (L : Lib) (e : Env) (n : Nat) {t : List Tok} (h : iseos t = true) : items L e (n + 1) t = .ok ([], t) := by
  cases t with
  | nil => rfl
  | cons a t => cases a <;> first | rfl | (simp [iseos] at h)

theorem items_plain (L : Lib) (e : Env) (n : Nat) {a : Tok} (h : Plain a) (t : List Tok) : items L e (n + 1) (a :: t) =
    (expr L e (a :: t)).bind fun p => (items L e n p.2).bind fun q => .ok (p.1 :: q.1, q.2) := by
  cases a <;> first | rfl | exact h.elim

theorem items_text (L : Lib) (e : Env) (x : Ex) (t : List Tok) (h : iseos t = true) :
    items L e ((x.text 0 ++ t).length + 1) (x.text 0 ++ t) = (toR (x.val L e)).map fun v => ([v], t) := by
  obtain ⟨a, u, hx, hp⟩ := text_head x 0
  have hstep : items L e ((x.text 0 ++ t).length + 1) (x.text 0 ++ t) =
      (expr L e (x.text 0 ++ t)).bind fun p => (items L e (x.text 0 ++ t).length p.2).bind fun q => .ok (p.1 :: q.1, q.2) := by
    rw [hx, List.cons_append]
    exact items_plain L e _ hp _
  rw [hstep, expr_text L e x t (ends_eos h)]
  cases x.val L e with
  | none => rfl
  | some v =>
    have : items L e (x.text 0 ++ t).length t = .ok ([], t) := by
      rw [hx, List.cons_append, List.length_cons]
      exact items_eos L e _ h
    simp only [toR, Except.map, Except.bind, this]

theorem step_save (L : Lib) (p : List Line) (x : Ex) (k : Pos) (hk : iseos k.1 = true) (e ls) :
    step L p ⟨(Stm.save x).text k, e, ls⟩ =
      one (match x.number L e with | none => .bad | some r => .done { e with saved := some r }) k ls := by
  have : step L p ⟨(Stm.save x).text k, e, ls⟩ = step L p ⟨(.save :: (x.text 0 ++ k.1), k.2), e, ls⟩ := rfl
  rw [this, step_tok L p (by simp)]
  show cmdsave L _ _ = _
  unfold cmdsave
  simp only [items_text L e x k.1 hk]
  unfold Ex.number
  cases x.val L e with
  | none => rfl
  | some a =>
    cases a with
    | num r => exact finish_eos hk
    | str s => rfl

theorem step_punch (L : Lib) (p : List Line) (x : Ex) (k : Pos) (hk : iseos k.1 = true) (e ls) :
    step L p ⟨(Stm.punch x).text k, e, ls⟩ =
      one (match x.val L e with | none => .bad | some a => .done { e with out := e.out ++ [a] }) k ls := by
  have : step L p ⟨(Stm.punch x).text k, e, ls⟩ = step L p ⟨(.punch :: (x.text 0 ++ k.1), k.2), e, ls⟩ := rfl
  rw [this, step_tok L p (by simp)]
  show cmdpunch L _ _ = _
  unfold cmdpunch
  simp only [items_text L e x k.1 hk]
  cases x.val L e with
  | none => rfl
  | some a => exact finish_eos hk

theorem step_else (L : Lib) (p : List Line) (t m e ls) :
    step L p ⟨(.else_ :: t, m), e, ls⟩ = .ok (.go ⟨([], m), e, ls⟩) := rfl

/-- A statement begins neither with a number nor with a colon. -/
theorem text_starts (a : Stm) (k : Pos) : ∃ b t, (a.text k).1 = b :: t ∧ b ≠ .colon ∧ ∀ r, b ≠ .num r := by
  induction a generalizing k with
  | seq a s b iha _ => exact iha _
  | let_ kw v x => cases kw <;> exact ⟨_, _, rfl, by simp, by simp⟩
  | _ => exact ⟨_, _, rfl, by simp, by simp⟩

theorem step_if (L : Lib) (p : List Line) (c : Ex) (q : Pos) (hq : ∀ r, q.1.head? ≠ some (.num r)) (e ls)
    (hs : ∀ r, (skipif 0 q.1).head? ≠ some (.num r)) :
    step L p ⟨pre (.if_ :: c.text 0 ++ [.then_]) q, e, ls⟩ =
      match c.number L e with
      | none => .error .bad
      | some r => .ok (.go ⟨(if r = 0 then skipif 0 q.1 else q.1, q.2), e, ls⟩) := by
  have : step L p ⟨pre (.if_ :: c.text 0 ++ [.then_]) q, e, ls⟩ =
      step L p ⟨(.if_ :: (c.text 0 ++ (.then_ :: q.1)), q.2), e, ls⟩ := by
    unfold pre; simp
  rw [this, step_tok L p (by simp)]
  show cmdif L p _ _ = _
  unfold cmdif
  simp only [realexpr_text L e c (.then_ :: q.1) trivial]
  cases c.number L e with
  | none => rfl
  | some r =>
    have hreq : require .then_ (.then_ :: q.1) = .ok q.1 := require_self _ _
    simp only [toR, Except.map, bind, Except.bind, hreq]
    have hh : ∀ r', (if r = 0 then skipif 0 q.1 else q.1).head? ≠ some (.num r') := by
      intro r'; split_ifs
      · exact hs r'
      · exact hq r'
    generalize (if r = 0 then skipif 0 q.1 else q.1) = t at hh
    cases t with
    | nil => rfl
    | cons a t => cases a <;> first | rfl | exact absurd rfl (hh _)

theorem floor_nat (n : Nat) : ⌊(n : Rat) + 1 / 2⌋ = (n : Int) := by
  rw [Int.floor_eq_iff]
  constructor
  · push_cast; linarith
  · push_cast; linarith

theorem realexpr_num (L : Lib) (e : Env) (r : Rat) {t} (h : iseos t = true) : realexpr L e (.num r :: t) = .ok (r, t) :=
  realexpr_text L e (.num r) t (ends_eos h)

theorem step_gosub (L : Lib) (p : List Line) (n : Nat) (k : Pos) (hk : iseos k.1 = true) (e ls) {q : Pos}
    (hf : findline n p = some q) :
    step L p ⟨(Stm.gosub n).text k, e, ls⟩ = .ok (.go ⟨q, e, .gosub (.num n :: k.1, k.2) :: ls⟩) := by
  have : step L p ⟨(Stm.gosub n).text k, e, ls⟩ = step L p ⟨(.gosub :: .num n :: k.1, k.2), e, ls⟩ := rfl
  rw [this, step_tok L p (by simp)]
  show cmdgoto L p _ _ = _
  unfold cmdgoto
  simp only [realexpr_num L e n hk, bind, Except.bind, floor_nat, hf]

theorem skip_eos {t : List Tok} (h : iseos t = true) : skiptoeos t = t := by
  cases t with
  | nil => rfl
  | cons a t => cases a <;> first | rfl | (simp [iseos] at h)

theorem step_return (L : Lib) (p : List Line) (n : Nat) (k : Pos) (hk : iseos k.1 = true) (q e ls) :
    step L p ⟨pre [.ret] q, e, .gosub (.num n :: k.1, k.2) :: ls⟩ = .ok (.go ⟨k, e, ls⟩) := by
  have : step L p ⟨pre [.ret] q, e, .gosub (.num n :: k.1, k.2) :: ls⟩ =
    step L p ⟨(.ret :: q.1, q.2), e, .gosub (.num n :: k.1, k.2) :: ls⟩ := rfl
  rw [this, step_tok L p (by simp)]
  have hs : skiptoeos (.num n :: k.1) = k.1 := (show skiptoeos (.num (n : Rat) :: k.1) = skiptoeos k.1 from rfl).trans (skip_eos hk)
  rw [show statement L p ⟨(.ret :: q.1, q.2), e, .gosub (.num n :: k.1, k.2) :: ls⟩ .ret q.1 =
      finish ⟨(skiptoeos (.num n :: k.1), k.2), e, ls⟩ from rfl, hs]
  exact finish_eos hk

theorem step_end (L : Lib) (p : List Line) (q e ls) : step L p ⟨pre [.end_] q, e, ls⟩ = .ok (.halt e) := rfl

/-! ### FOR -/

theorem over_passed (x last by_ : Rat) : passed by_ x last = true ↔ Over x last by_ := by
  unfold passed Over
  rw [decide_eq_true_eq]
  split_ifs with h1 h2
  · constructor
    · rintro (⟨_, h⟩ | ⟨h, _⟩)
      · exact h
      · linarith
    · intro h; left; exact ⟨h1.le, h⟩
  · constructor
    · rintro (⟨h, _⟩ | ⟨_, h⟩)
      · linarith
      · exact h
    · intro h; right; exact ⟨h2.le, h⟩
  · have h0 : by_ = 0 := le_antisymm (not_lt.1 h1) (not_lt.1 h2)
    subst h0
    constructor
    · rintro (⟨_, h⟩ | ⟨_, h⟩)
      · exact ne_of_gt h
      · exact ne_of_lt h
    · intro h
      rcases lt_or_gt_of_ne h with h | h
      · right; exact ⟨le_refl _, h⟩
      · left; exact ⟨le_refl _, h⟩

theorem over_next (x last by_ : Rat) : ((by_ < 0 ∨ x ≤ last) ∧ (0 < by_ ∨ last ≤ x)) ↔ ¬ Over x last by_ := by
  unfold Over
  split_ifs with h1 h2
  · constructor
    · rintro ⟨h | h, _⟩
      · linarith
      · exact not_lt.2 h
    · intro h; exact ⟨Or.inr (not_lt.1 h), Or.inl h1⟩
  · constructor
    · rintro ⟨_, h | h⟩
      · linarith
      · exact not_lt.2 h
    · intro h; exact ⟨Or.inl h2, Or.inr (not_lt.1 h)⟩
  · rw [not_not]
    constructor
    · rintro ⟨h | h, h' | h'⟩
      · exact absurd h h2
      · exact absurd h h2
      · exact absurd h' h1
      · exact le_antisymm h h'
    · rintro rfl; exact ⟨Or.inr (le_refl _), Or.inr (le_refl _)⟩

theorem readstep_text (L : Lib) (e : Env) (z : Option Ex) {t : List Tok} (h : iseos t = true) :
    readstep L e (stepText z ++ t) = (toR ((z.getD (.num 1)).number L e)).map fun r => (r, t) := by
  cases z with
  | none =>
    have : readstep L e t = .ok (1, t) := by
      cases t with
      | nil => rfl
      | cons a t => cases a <;> first | rfl | (simp [iseos] at h)
    exact this
  | some z => exact realexpr_text L e z t (ends_eos h)

theorem ends_step (z : Option Ex) {t : List Tok} (h : iseos t = true) : Ends (stepText z ++ t) := by
  cases z with
  | none => exact ends_eos h
  | some z => trivial

/-- What the FOR of a loop does; `q` is the place after it. -/
theorem step_for (L : Lib) (p : List Line) (v : Var) (hv : v.str = false) (x y : Ex) (z : Option Ex) (q : Pos)
    (hq : iseos q.1 = true) (e ls) :
    step L p ⟨pre (.for_ :: .var v :: .op .eq :: x.text 0 ++ .to_ :: y.text 0 ++ stepText z) q, e, ls⟩ =
      match x.number L e with
      | none => .error .bad
      | some first =>
        match y.number L (e.setNum v first), (z.getD (.num 1)).number L (e.setNum v first) with
        | some last, some by_ =>
          if Over first last by_ then
            match sf v 0 0 q with
            | none => .error .bad
            | some q' => finish ⟨(skiptoeos q'.1, q'.2), e.setNum v first, ls⟩
          else .ok (.go ⟨q, e.setNum v first, .for_ v last by_ q :: ls⟩)
        | _, _ => .error .bad := by
  have : step L p ⟨pre (.for_ :: .var v :: .op .eq :: x.text 0 ++ .to_ :: y.text 0 ++ stepText z) q, e, ls⟩ =
      step L p ⟨(.for_ :: .var v :: .op .eq :: (x.text 0 ++ (.to_ :: (y.text 0 ++ (stepText z ++ q.1)))), q.2), e, ls⟩ := by
    unfold pre; simp
  rw [this, step_tok L p (by simp)]
  show cmdfor L _ _ = _
  unfold cmdfor
  have h1 : ∀ t, findvar (.var v :: .op .eq :: t) = .ok (v, .op .eq :: t) := fun t => by unfold findvar; exact if_neg (by simp)
  have h2 : ∀ t, require (.op .eq) (.op .eq :: t) = .ok t := fun t => require_self _ _
  have h3 : ∀ t, require .to_ (.to_ :: t) = .ok t := fun t => require_self _ _
  simp only [h1, hv, bind, Except.bind, h2, realexpr_text L e x (.to_ :: (y.text 0 ++ (stepText z ++ q.1))) trivial]
  cases x.number L e with
  | none => rfl
  | some first =>
    simp only [toR, Except.map, h3, realexpr_text L _ y (stepText z ++ q.1) (ends_step z hq)]
    cases y.number L (e.setNum v first) with
    | none => rfl
    | some last =>
      simp only [toR, Except.map, readstep_text L _ z hq]
      cases (z.getD (.num 1)).number L (e.setNum v first) with
      | none => rfl
      | some by_ =>
        simp only [toR]
        by_cases ho : Over first last by_
        · rw [if_pos ((over_passed _ _ _).2 ho), if_pos ho]
          show (match sf v 0 0 q with | some (t, m) => _ | none => _) = _
          cases sf v 0 0 q <;> rfl
        · rw [if_neg (fun h => ho ((over_passed _ _ _).1 h)), if_neg ho]
          exact finish_eos (s := ⟨(q.1, q.2), _, _⟩) hq

theorem nextvar_text (v : Var) (named : Bool) {t : List Tok} (h : iseos t = true) :
    nextvar ((if named then [.var v] else []) ++ t) = .ok (if named then some v else none, t) := by
  cases named with
  | false => exact if_pos h
  | true =>
    unfold nextvar
    rw [if_neg (by simp [iseos])]
    have : findvar (.var v :: t) = .ok (v, t) := if_neg (eos_lp h)
    show (findvar (.var v :: t)).map _ = _
    rw [this]; rfl

theorem step_next (L : Lib) (p : List Line) (v : Var) (named : Bool) (last by_ : Rat) (home k : Pos) (hk : iseos k.1 = true)
    (hh : iseos home.1 = true) (e ls) :
    step L p ⟨pre (.next :: if named then [.var v] else []) k, e, .for_ v last by_ home :: ls⟩ =
      if Over (e.num v + by_) last by_ then .ok (.go ⟨k, e.setNum v (e.num v + by_), ls⟩)
      else .ok (.go ⟨home, e.setNum v (e.num v + by_), .for_ v last by_ home :: ls⟩) := by
  have : step L p ⟨pre (.next :: if named then [.var v] else []) k, e, .for_ v last by_ home :: ls⟩ =
      step L p ⟨(.next :: ((if named then [.var v] else []) ++ k.1), k.2), e, .for_ v last by_ home :: ls⟩ := rfl
  rw [this, step_tok L p (by simp)]
  show cmdnext _ _ = _
  unfold cmdnext
  have hf : findfor (if named then some v else none) (.for_ v last by_ home :: ls) = some (v, last, by_, home, ls) := by
    unfold findfor
    exact if_pos (by cases named <;> simp)
  simp only [nextvar_text v named hk, bind, Except.bind, hf]
  by_cases ho : Over (e.num v + by_) last by_
  · rw [if_pos ho, if_neg (fun h => (over_next _ _ _).1 h ho)]
    exact finish_eos (s := ⟨(k.1, k.2), _, _⟩) hk
  · rw [if_neg ho, if_pos ((over_next _ _ _).2 ho)]
    exact finish_eos hh

/-! ### WHILE -/

theorem step_while (L : Lib) (p : List Line) (c : Ex) (q : Pos) (hq : iseos q.1 = true) (e ls) :
    step L p ⟨pre (.while_ :: c.text 0) q, e, ls⟩ =
      match c.number L e with
      | none => .error .bad
      | some r =>
        if r = 0 then
          match sw 0 q with
          | none => .error .bad
          | some q' => finish ⟨(skiptoeos q'.1, q'.2), e, ls⟩
        else .ok (.go ⟨q, e, .while_ (c.text 0 ++ q.1, q.2) :: ls⟩) := by
  have : step L p ⟨pre (.while_ :: c.text 0) q, e, ls⟩ = step L p ⟨(.while_ :: (c.text 0 ++ q.1), q.2), e, ls⟩ := rfl
  rw [this, step_tok L p (by simp)]
  show cmdwhile L _ _ = _
  unfold cmdwhile
  rw [if_neg (by rw [text_not_eos]; simp)]
  simp only [realexpr_text L e c q.1 (ends_eos hq), bind, Except.bind]
  cases c.number L e with
  | none => rfl
  | some r =>
    simp only [toR, Except.map]
    by_cases hr : r = 0
    · rw [if_neg (not_not.2 hr), if_pos hr]
      show (match sw 0 q with | none => _ | some (u, m) => _) = _
      cases sw 0 q <;> rfl
    · rw [if_pos hr, if_neg hr]
      exact finish_eos (s := ⟨(q.1, q.2), _, _⟩) hq

theorem step_wend (L : Lib) (p : List Line) (c : Ex) (q k : Pos) (hq : iseos q.1 = true) (hk : iseos k.1 = true) (e ls) :
    step L p ⟨pre [.wend] k, e, .while_ (c.text 0 ++ q.1, q.2) :: ls⟩ =
      match c.number L e with
      | none => .error .bad
      | some r =>
        if r = 0 then .ok (.go ⟨k, e, ls⟩)
        else .ok (.go ⟨q, e, .while_ (c.text 0 ++ q.1, q.2) :: ls⟩) := by
  have : step L p ⟨pre [.wend] k, e, .while_ (c.text 0 ++ q.1, q.2) :: ls⟩ =
    step L p ⟨(.wend :: k.1, k.2), e, .while_ (c.text 0 ++ q.1, q.2) :: ls⟩ := rfl
  rw [this, step_tok L p (by simp)]
  have e0 : ∀ S t, statement L p S .wend t = cmdwend L S t := fun _ _ => rfl
  rw [e0]
  unfold cmdwend
  have h1 : condition L e 0 k.1 = .ok (0, k.1) := if_pos hk
  have h2 : condition L e 1 (c.text 0 ++ q.1) = (toR (c.number L e)).map fun r => (r, q.1) := by
    unfold condition
    rw [if_neg (by rw [text_not_eos]; simp)]
    exact realexpr_text L e c q.1 (ends_eos hq)
  simp only [findwhile, h1, bind, Except.bind, h2]
  cases c.number L e with
  | none => rfl
  | some r =>
    simp only [toR, Except.map]
    rw [if_neg (by simp)]
    by_cases hr : r = 0
    · rw [if_neg (not_not.2 hr), if_pos hr]
      exact finish_eos (s := ⟨(k.1, k.2), _, _⟩) hk
    · rw [if_pos hr, if_neg hr]
      exact finish_eos (s := ⟨(q.1, q.2), _, _⟩) hq

end Verif.Basic
