import Verif.Lemmas.BasicRun2
/-
Helper lemmas for C123: the interpreter does with the text of a structured program what the program means.
-/
namespace Verif.Basic

/-- Where the interpreter stands after a statement that was followed by the place `k`: at `k`, or at the end of the line if an ELSE
follows. -/
def norm (k : Pos) : Pos :=
  match k.1 with
  | .else_ :: _ => ([], k.2)
  | _ => k

theorem norm_put (s : Sep) (k : Pos) : norm (s.put k) = s.put k := by cases s <;> rfl

theorem iter_add (L : Lib) (p : List Line) (i j : Nat) : ∀ {st st1}, iter L p i st = .ok (.go st1) →
    iter L p (i + j) st = iter L p j st1 := by
  induction i with
  | zero => intro st st1 h; simp only [iter, Except.ok.injEq, Next.go.injEq] at h; rw [Nat.zero_add, h]
  | succ i ih =>
    intro st st1 h
    rw [iter] at h
    rw [show i + 1 + j = (i + j) + 1 by omega, iter]
    cases hs : step L p st with
    | error f => rw [hs] at h; cases h
    | ok x =>
      cases x with
      | halt e => rw [hs] at h; cases h
      | go st' => rw [hs] at h; exact ih h

theorem iter_step (L : Lib) (p : List Line) {st st1} (h : step L p st = .ok (.go st1)) (j) :
    iter L p (j + 1) st = iter L p j st1 := by rw [iter, h]

theorem iter_bad (L : Lib) (p : List Line) {st f} (h : step L p st = .error f) (j) :
    iter L p (j + 1) st = .error f := by rw [iter, h]

/-- The interpreter from the state `st` agrees with the outcome `r`: it comes to the place `k` with the loop records `ls`, or stops
with an error, or is still running after `n` turns. -/
def Sim (L : Lib) (p : List Line) (n : Nat) (r : Res) (st : St) (k : Pos) (ls : List Loop) : Prop :=
  match r with
  | .done e => ∃ j, 1 ≤ j ∧ iter L p j st = .ok (.go ⟨norm k, e, ls⟩)
  | .bad => ∃ j, 1 ≤ j ∧ iter L p j st = .error .bad
  | .more => ∃ j st', n ≤ j ∧ iter L p j st = .ok (.go st')

theorem Sim.mono {L p m n r st k ls} (h : Sim L p n r st k ls) (hm : m ≤ n) : Sim L p m r st k ls := by
  cases r with
  | done e => exact h
  | bad => exact h
  | more => obtain ⟨j, st', hj, h⟩ := h; exact ⟨j, st', by omega, h⟩

theorem Sim.before {L p n r st st1 k ls} (hs : step L p st = .ok (.go st1)) (h : Sim L p n r st1 k ls) :
    Sim L p (n + 1) r st k ls := by
  cases r with
  | done e => obtain ⟨j, hj, h⟩ := h; exact ⟨j + 1, by omega, by rw [iter_step L p hs, h]⟩
  | bad => obtain ⟨j, hj, h⟩ := h; exact ⟨j + 1, by omega, by rw [iter_step L p hs, h]⟩
  | more => obtain ⟨j, st', hj, h⟩ := h; exact ⟨j + 1, st', by omega, by rw [iter_step L p hs, h]⟩

theorem Sim.before' {L p n r st st1 k ls} (hs : step L p st = .ok (.go st1)) (h : Sim L p n r st1 k ls) :
    Sim L p n r st k ls := (Sim.before hs h).mono (by omega)

theorem Sim.same {L p n r st st1 k ls} (hs : step L p st = step L p st1) (h : Sim L p n r st1 k ls) : Sim L p n r st k ls := by
  have key : ∀ j, 1 ≤ j → iter L p j st = iter L p j st1 := by
    intro j hj
    obtain ⟨i, rfl⟩ : ∃ i, j = i + 1 := ⟨j - 1, by omega⟩
    rw [iter, iter, hs]
  cases r with
  | done e => obtain ⟨j, hj, h⟩ := h; exact ⟨j, hj, by rw [key j hj, h]⟩
  | bad => obtain ⟨j, hj, h⟩ := h; exact ⟨j, hj, by rw [key j hj, h]⟩
  | more =>
    obtain ⟨j, st', hj, h⟩ := h
    by_cases h0 : 1 ≤ j
    · exact ⟨j, st', hj, by rw [key j h0, h]⟩
    · have : j = 0 := by omega
      subst this
      exact ⟨0, st, hj, rfl⟩

/-- A separator is passed. -/
theorem Sim.sep {L p n r e ls' k ls} (s : Sep) {q : Pos} (h : Sim L p n r ⟨q, e, ls'⟩ k ls) : Sim L p n r ⟨s.put q, e, ls'⟩ k ls := by
  cases s with
  | colon => exact Sim.same (step_colon L p q.1 q.2 e ls') h
  | line m => exact Sim.before' (step_line L p m q.1 q.2 e ls') h

theorem Sim.bind {L p m n r st k₁ ls₁ k ls} {f : Env → Res} (h : Sim L p n r st k₁ ls₁) (hn : n ≤ m + 1)
    (hf : ∀ e, r = .done e → Sim L p m (f e) ⟨norm k₁, e, ls₁⟩ k ls) : Sim L p n (r.bind f) st k ls := by
  cases r with
  | bad => exact h
  | more => exact h
  | done e =>
    obtain ⟨i, hi, h⟩ := h
    have hf := hf e rfl
    show Sim L p n (f e) st k ls
    cases hr : f e with
    | done e' =>
      rw [hr] at hf
      obtain ⟨j, hj, hf⟩ := hf
      exact ⟨i + j, by omega, by rw [iter_add L p i j h, hf]⟩
    | bad =>
      rw [hr] at hf
      obtain ⟨j, hj, hf⟩ := hf
      exact ⟨i + j, by omega, by rw [iter_add L p i j h, hf]⟩
    | more =>
      rw [hr] at hf
      obtain ⟨j, st', hj, hf⟩ := hf
      exact ⟨i + j, st', by omega, by rw [iter_add L p i j h, hf]⟩

/-- Having come to `k` is enough. -/
theorem Sim.arrive {L p n e st k ls} (h : step L p st = .ok (.go ⟨k, e, ls⟩)) : Sim L p n (.done e) st k ls := by
  by_cases hk : norm k = k
  · exact ⟨1, le_refl 1, by rw [iter_step L p h, hk]; rfl⟩
  · obtain ⟨t, m⟩ := k
    cases t with
    | nil => exact absurd rfl hk
    | cons a t =>
      cases a <;> first | exact absurd rfl hk | skip
      refine ⟨2, by omega, ?_⟩
      rw [iter_step L p h, iter_step L p (step_else L p t m e ls)]
      rfl

theorem Sim.fail {L p n st k ls} (h : step L p st = .error .bad) : Sim L p n .bad st k ls :=
  ⟨1, le_refl 1, iter_bad L p h 0⟩

theorem Sim.one {L p n r st k ls} (h : step L p st = Verif.Basic.one r k ls) (hr : r ≠ .more) : Sim L p n r st k ls := by
  cases r with
  | done e => exact Sim.arrive h
  | bad => exact Sim.fail h
  | more => exact absurd rfl hr

theorem Sim.to {L p n r st k k' ls} (h : Sim L p n r st k ls) (hk : norm k = norm k') : Sim L p n r st k' ls := by
  cases r with
  | done e => obtain ⟨j, hj, h⟩ := h; exact ⟨j, hj, by rw [h, hk]⟩
  | bad => exact h
  | more => exact h

/-- The place after a statement. -/
structure Fits (s : Stm) (k : Pos) : Prop where
  eos : iseos k.1 = true
  open_ : s.open = true → k.1 = [] ∨ ∃ t, k.1 = .else_ :: t
  dangles : s.dangles = true → k.1 = []

theorem fits_put {a : Stm} {s : Sep} (h : a.sepOk s = true) (q : Pos) : Fits a (s.put q) := by
  refine ⟨eos_put s q, ?_, ?_⟩
  · intro ho
    cases s with
    | colon => simp [Stm.sepOk, ho] at h
    | line n => left; rfl
  · intro hd
    cases s with
    | colon => rw [sepOk_colon h] at hd; cases hd
    | line n => rfl

theorem fits_nil {a : Stm} {k : Pos} (h : k.1 = []) : Fits a k := ⟨by rw [h]; rfl, fun _ => Or.inl h, fun _ => h⟩

/-- The text of the rest of a FOR loop, from its NEXT on. -/
def nextText (v : Var) (named : Bool) (k : Pos) : Pos := pre (.next :: if named then [.var v] else []) k

/-- The subroutines are in the program. -/
def Holds (p : List Line) (subs : Nat → Option Stm) : Prop :=
  ∀ n b, subs n = some b → b.clear subs = true ∧
    ∃ s k, b.sepOk s = true ∧ findline n p = some (b.text (s.put (pre [.ret] k)))

/-- What is proved of the tasks with the bound `n`. -/
structure Tasks (L : Lib) (p : List Line) (subs : Nat → Option Stm) (n : Nat) : Prop where
  stm : ∀ b k e ls, b.clear subs = true → Fits b k → Sim L p (n - 1) (Task.run L subs n (.stm b) e) ⟨b.text k, e, ls⟩ k ls
  turn : ∀ v last by_ body (s₁ s₂ : Sep) named k e ls, body.clear subs = true → body.sepOk s₂ = true → v.str = false → iseos k.1 = true →
    Sim L p (n - 1) (Task.run L subs n (.turn v last by_ body) e)
      ⟨nextText v named k, e, .for_ v last by_ (s₁.put (body.text (s₂.put (nextText v named k)))) :: ls⟩ k ls
  again : ∀ c body (s₁ s₂ : Sep) k e ls, body.clear subs = true → body.sepOk s₂ = true → iseos k.1 = true →
    Sim L p (n - 1) (Task.run L subs n (.again c body) e)
      ⟨pre [.wend] k, e, .while_ (pre (c.text 0) (s₁.put (body.text (s₂.put (pre [.wend] k))))) :: ls⟩ k ls

theorem assign_num {v : Var} (hv : v.str = false) (e : Env) (r : Rat) : assign v e (.num r) = .done (e.setNum v r) := by
  unfold assign; rw [hv]; rfl

theorem setNum_same (e : Env) (v : Var) (r : Rat) : (e.setNum v r).num v = r := by simp [Env.setNum]

theorem assign_more (v : Var) (e : Env) (a : Val) : assign v e a ≠ .more := by
  cases a <;> unfold assign <;> split_ifs <;> simp

theorem bind_done (r : Res) : r.bind .done = r := by cases r <;> rfl

theorem sf_loop {v : Var} {body : Stm} (hu : body.unnamed v = false) (s₁ s₂ : Sep) (named : Bool) {k : Pos} (hk : iseos k.1 = true) :
    ∃ q, sf v 0 0 (s₁.put (body.text (s₂.put (nextText v named k)))) = some q ∧ skiptoeos q.1 = k.1 ∧ q.2 = k.2 := by
  rw [sf_put, sf_text v body hu 0 0 _ (eos_put s₂ _), sf_put]
  cases named with
  | true => exact ⟨_, sf_found_same v 0 k.1 k.2, by rw [show skiptoeos (Tok.var v :: k.1) = skiptoeos k.1 from rfl, skip_eos hk], rfl⟩
  | false => exact ⟨_, sf_found (eos_var hk v) 0 k.2, skip_eos hk, rfl⟩

theorem sim (L : Lib) (p : List Line) (subs : Nat → Option Stm) (hp : Holds p subs) (n : Nat) (hT : Tasks L p subs n) (s : Stm) :
    ∀ k e ls, s.clear subs = true → Fits s k → Sim L p n (s.does L subs (Task.run L subs n) e) ⟨s.text k, e, ls⟩ k ls := by
  induction s with
  | rem =>
    intro k e ls _ hf
    exact Sim.arrive (step_rem L p k hf.eos e ls)
  | let_ kw v x =>
    intro k e ls _ hf
    refine Sim.one (step_let L p kw v x k hf.eos e ls) ?_
    show (match x.val L e with | none => Res.bad | some a => assign v e a) ≠ .more
    cases x.val L e with
    | none => simp
    | some a => exact assign_more v e a
  | seq a s b iha ihb =>
    intro k e ls hc hf
    simp only [Stm.clear, Bool.and_eq_true] at hc
    obtain ⟨⟨hca, hcb⟩, hs⟩ := hc
    refine Sim.bind (iha (s.put (b.text k)) e ls hca (fits_put hs _)) (m := n) (by omega) ?_
    intro e' _
    rw [norm_put]
    exact Sim.sep s (ihb k e' ls hcb ⟨hf.eos, hf.open_, hf.dangles⟩)
  | ifThen c a ih =>
    intro k e ls hc hf
    simp only [Stm.clear, Bool.and_eq_true] at hc
    have hk : k.1 = [] := hf.dangles rfl
    have hsk : skipif 0 (a.text k).1 = [] := (skipif_text subs a hc.1 hc.2).2 0 k hk
    obtain ⟨b, t, hbt, _, hbn⟩ := text_starts a k
    have hst := step_if L p c (a.text k) (by rw [hbt]; intro r h; exact hbn r (by simpa using h)) e ls (by rw [hsk]; simp)
    show Sim L p n (match c.number L e with | none => _ | some r => _) ⟨pre (.if_ :: c.text 0 ++ [.then_]) (a.text k), e, ls⟩ k ls
    cases hn : c.number L e with
    | none => rw [hn] at hst; exact Sim.fail hst
    | some r =>
      rw [hn] at hst
      simp only at hst ⊢
      split_ifs at hst ⊢ with hr
      · rw [hsk, inline_snd a hc.2, show (([], k.2) : Pos) = k by rw [← hk]] at hst
        exact Sim.arrive hst
      · exact Sim.before' hst (ih k e ls hc.1 (fits_nil hk))
  | ifElse c a b iha ihb =>
    intro k e ls hc hf
    simp only [Stm.clear, Bool.and_eq_true, Bool.not_eq_true'] at hc
    obtain ⟨⟨⟨⟨hca, hcb⟩, hia⟩, hib⟩, hd⟩ := hc
    have hk := hf.open_ rfl
    have hsk : skipif 0 (a.text (pre [.else_] (b.text k))).1 = (b.text k).1 := by
      rw [(skipif_text subs a hca hia).1 hd]; rfl
    obtain ⟨b1, t, hbt, _, hbn⟩ := text_starts a (pre [.else_] (b.text k))
    obtain ⟨b2, t2, hbt2, _, hbn2⟩ := text_starts b k
    have hst := step_if L p c (a.text (pre [.else_] (b.text k))) (by rw [hbt]; intro r h; exact hbn r (by simpa using h)) e ls
      (by rw [hsk, hbt2]; intro r h; exact hbn2 r (by simpa using h))
    show Sim L p n (match c.number L e with | none => _ | some r => _)
      ⟨pre (.if_ :: c.text 0 ++ [.then_]) (a.text (pre [.else_] (b.text k))), e, ls⟩ k ls
    cases hn : c.number L e with
    | none => rw [hn] at hst; exact Sim.fail hst
    | some r =>
      rw [hn] at hst
      simp only at hst ⊢
      split_ifs at hst ⊢ with hr
      · rw [hsk, inline_snd a hia] at hst
        refine Sim.before' hst (ihb k e ls hcb ⟨hf.eos, fun _ => hk, hf.dangles⟩)
      · refine Sim.before' hst (Sim.to (iha (pre [.else_] (b.text k)) e ls hca
          ⟨rfl, fun _ => Or.inr ⟨_, rfl⟩, fun h => by rw [hd] at h; cases h⟩) ?_)
        have h1 : norm (pre [.else_] (b.text k)) = ([], (b.text k).2) := rfl
        rw [h1, inline_snd b hib]
        unfold norm
        rcases hk with hk | ⟨t, hk⟩ <;> rw [hk]
        · exact (by rw [← hk] : (([], k.2) : Pos) = k)
  | for_ v x y z s₁ body s₂ named ih =>
    intro k e ls hc hf
    simp only [Stm.clear, Bool.and_eq_true, Bool.not_eq_true'] at hc
    obtain ⟨⟨⟨hcb, hv⟩, hs⟩, hu⟩ := hc
    have hst := step_for L p v hv x y z (s₁.put (body.text (s₂.put (nextText v named k)))) (eos_put s₁ _) e ls
    show Sim L p n (match x.number L e with | none => _ | some first => _)
      ⟨pre (.for_ :: .var v :: .op .eq :: x.text 0 ++ .to_ :: y.text 0 ++ stepText z)
        (s₁.put (body.text (s₂.put (nextText v named k)))), e, ls⟩ k ls
    cases hx : x.number L e with
    | none => rw [hx] at hst; exact Sim.fail hst
    | some first =>
      rw [hx] at hst
      simp only [assign_num hv, Res.bind] at hst ⊢
      cases hy : y.number L (e.setNum v first) with
      | none => rw [hy] at hst; exact Sim.fail hst
      | some last =>
        cases hz : (z.getD (.num 1)).number L (e.setNum v first) with
        | none => rw [hy, hz] at hst; exact Sim.fail hst
        | some by_ =>
          rw [hy, hz] at hst
          simp only at hst ⊢
          split_ifs at hst ⊢ with ho
          · obtain ⟨q, hq, h1, h2⟩ := sf_loop hu s₁ s₂ named hf.eos
            rw [hq] at hst
            simp only [h1, h2] at hst
            rw [finish_eos (s := ⟨(k.1, k.2), _, _⟩) hf.eos] at hst
            exact Sim.arrive hst
          · refine Sim.before' hst (Sim.sep s₁ ?_)
            refine Sim.bind (ih (s₂.put (nextText v named k)) _ _ hcb (fits_put hs _)) (m := n - 1) (by omega) ?_
            intro e' _
            rw [norm_put]
            exact Sim.sep s₂ (hT.turn v last by_ body s₁ s₂ named k e' ls hcb hs hv hf.eos)
  | while_ c s₁ body s₂ ih =>
    intro k e ls hc hf
    simp only [Stm.clear, Bool.and_eq_true] at hc
    obtain ⟨hcb, hs⟩ := hc
    have hst := step_while L p c (s₁.put (body.text (s₂.put (pre [.wend] k)))) (eos_put s₁ _) e ls
    show Sim L p n (match c.number L e with | none => _ | some r => _)
      ⟨pre (.while_ :: c.text 0) (s₁.put (body.text (s₂.put (pre [.wend] k)))), e, ls⟩ k ls
    cases hx : c.number L e with
    | none => rw [hx] at hst; exact Sim.fail hst
    | some r =>
      rw [hx] at hst
      simp only at hst ⊢
      split_ifs at hst ⊢ with hr
      · have hq : sw 0 (s₁.put (body.text (s₂.put (pre [.wend] k)))) = some k := by
          rw [sw_put, sw_text, sw_put]; exact sw_found k.1 k.2
        rw [hq] at hst
        simp only [skip_eos hf.eos] at hst
        rw [finish_eos (s := ⟨(k.1, k.2), _, _⟩) hf.eos] at hst
        exact Sim.arrive hst
      · refine Sim.before' hst (Sim.sep s₁ ?_)
        refine Sim.bind (ih (s₂.put (pre [.wend] k)) _ _ hcb (fits_put hs _)) (m := n - 1) (by omega) ?_
        intro e' _
        rw [norm_put]
        exact Sim.sep s₂ (hT.again c body s₁ s₂ k e' ls hcb hs hf.eos)
  | gosub m =>
    intro k e ls hc hf
    simp only [Stm.clear, Option.isSome_iff_exists] at hc
    obtain ⟨b, hb⟩ := hc
    obtain ⟨hcb, s, k', hs, hl⟩ := hp m b hb
    have hst := step_gosub L p m k hf.eos e ls hl
    have hd : (Stm.gosub m).does L subs (Task.run L subs n) e = (Task.run L subs n (.stm b) e).bind .done := by
      rw [bind_done]
      show (match subs m with | none => _ | some s => _) = _
      rw [hb]
    rw [hd]
    have h1 := hT.stm b (s.put (pre [.ret] k')) e (.gosub (.num m :: k.1, k.2) :: ls) hcb (fits_put hs _)
    have h2 : Sim L p (n - 1) ((Task.run L subs n (.stm b) e).bind .done) ⟨b.text (s.put (pre [.ret] k')), e, .gosub (.num m :: k.1, k.2) :: ls⟩
        k ls := by
      refine Sim.bind h1 (m := n - 1) (by omega) ?_
      intro e' _
      rw [norm_put]
      exact Sim.sep s (Sim.arrive (step_return L p m k hf.eos k' e' ls))
    exact (Sim.before hst h2).mono (by omega)
  | save x =>
    intro k e ls _ hf
    refine Sim.one (step_save L p x k hf.eos e ls) ?_
    show (match x.number L e with | none => Res.bad | some r => .done _) ≠ .more
    cases x.number L e <;> simp
  | punch x =>
    intro k e ls _ hf
    refine Sim.one (step_punch L p x k hf.eos e ls) ?_
    show (match x.val L e with | none => Res.bad | some r => .done _) ≠ .more
    cases x.val L e <;> simp

theorem tasks (L : Lib) (p : List Line) (subs : Nat → Option Stm) (hp : Holds p subs) (n : Nat) : Tasks L p subs n := by
  induction n with
  | zero =>
    refine ⟨?_, ?_, ?_⟩
    · intros; exact ⟨0, _, le_refl 0, rfl⟩
    · intros; exact ⟨0, _, le_refl 0, rfl⟩
    · intros; exact ⟨0, _, le_refl 0, rfl⟩
  | succ n ih =>
    have hD := sim L p subs hp n ih
    refine ⟨?_, ?_, ?_⟩
    · intro b k e ls hc hf
      exact hD b k e ls hc hf
    · intro v last by_ body s₁ s₂ named k e ls hc hs hv hk
      have hst := step_next L p v named last by_ (s₁.put (body.text (s₂.put (nextText v named k)))) k hk (eos_put s₁ _) e ls
      show Sim L p n ((assign v e (.num (e.num v + by_))).bind _) ⟨nextText v named k, e, _⟩ k ls
      rw [assign_num hv]
      show Sim L p n (if Over ((e.setNum v (e.num v + by_)).num v) last by_ then _ else _) ⟨nextText v named k, e, _⟩ k ls
      rw [setNum_same]
      by_cases ho : Over (e.num v + by_) last by_
      · rw [if_pos ho] at hst ⊢
        exact Sim.arrive hst
      · rw [if_neg ho] at hst ⊢
        refine Sim.before' hst (Sim.sep s₁ ?_)
        refine Sim.bind (hD body (s₂.put (nextText v named k)) _ _ hc (fits_put hs _)) (m := n - 1) (by omega) ?_
        intro e' _
        rw [norm_put]
        exact Sim.sep s₂ (ih.turn v last by_ body s₁ s₂ named k e' ls hc hs hv hk)
    · intro c body s₁ s₂ k e ls hc hs hk
      have hst := step_wend L p c (s₁.put (body.text (s₂.put (pre [.wend] k)))) k (eos_put s₁ _) hk e ls
      show Sim L p n (match c.number L e with | none => _ | some r => _) ⟨pre [.wend] k, e, _⟩ k ls
      cases hx : c.number L e with
      | none => rw [hx] at hst; exact Sim.fail hst
      | some r =>
        rw [hx] at hst
        simp only at hst ⊢
        split_ifs at hst ⊢ with hr
        · exact Sim.arrive hst
        · refine Sim.before' hst (Sim.sep s₁ ?_)
          refine Sim.bind (hD body (s₂.put (pre [.wend] k)) _ _ hc (fits_put hs _)) (m := n - 1) (by omega) ?_
          intro e' _
          rw [norm_put]
          exact Sim.sep s₂ (ih.again c body s₁ s₂ k e' ls hc hs hk)

end Verif.Basic
