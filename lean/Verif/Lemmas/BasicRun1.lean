import Verif.Spec.BasicRun
import Verif.Lemmas.Basic3
/-
Helper lemmas for C123: the searches for ELSE, NEXT and WEND pass over whole statements.
-/
namespace Verif.Basic

/-- The tokens of expressions. -/
def Plain : Tok → Prop
  | .num _ | .str _ | .var _ | .op _ | .fn _ | .lp | .rp => True
  | _ => False

theorem plain_text (x : Ex) : ∀ m, ∀ a ∈ x.text m, Plain a := by
  induction x with
  | num r => intro m a h; simp [Ex.text] at h; subst h; trivial
  | str r => intro m a h; simp [Ex.text] at h; subst h; trivial
  | var r => intro m a h; simp [Ex.text] at h; subst h; trivial
  | neg x ih =>
    intro m a h; simp only [Ex.text, List.mem_cons] at h
    rcases h with rfl | h
    · trivial
    · exact ih _ _ h
  | pos x ih =>
    intro m a h; simp only [Ex.text, List.mem_cons] at h
    rcases h with rfl | h
    · trivial
    · exact ih _ _ h
  | fn f x ih =>
    intro m a h; simp only [Ex.text, List.mem_cons] at h
    rcases h with rfl | h
    · trivial
    · exact ih _ _ h
  | bin o x y hx hy =>
    intro m a h
    have key : a ∈ x.text (leftPrec o) ∨ a = .op o ∨ a ∈ y.text (rightPrec o) ∨ a = .lp ∨ a = .rp := by
      rw [Ex.text] at h
      split_ifs at h
      · simp only [List.mem_append, List.mem_cons] at h; tauto
      · simp only [List.mem_append, List.mem_cons, List.cons_append, List.not_mem_nil, or_false] at h; tauto
    rcases key with h | rfl | h | rfl | rfl
    · exact hx _ _ h
    · trivial
    · exact hy _ _ h
    · trivial
    · trivial

theorem plain_step (z : Option Ex) : ∀ a ∈ stepText z, Plain a ∨ a = .step_ := by
  cases z with
  | none => intro a h; simp [stepText] at h
  | some x =>
    intro a h
    simp only [stepText, List.mem_cons] at h
    rcases h with rfl | h
    · right; rfl
    · left; exact plain_text x 0 a h

/-- A token that none of the searches looks at. -/
def Quiet (a : Tok) : Prop := a ≠ .if_ ∧ a ≠ .else_ ∧ a ≠ .for_ ∧ a ≠ .next ∧ a ≠ .while_ ∧ a ≠ .wend

theorem Plain.quiet {a : Tok} (h : Plain a) : Quiet a := by
  cases a <;> first | exact h.elim | (refine ⟨?_, ?_, ?_, ?_, ?_, ?_⟩ <;> simp)

theorem quiet_text (x : Ex) (m) : ∀ a ∈ x.text m, Quiet a := fun a h => (plain_text x m a h).quiet

theorem quiet_step (z : Option Ex) : ∀ a ∈ stepText z, Quiet a := by
  intro a h
  rcases plain_step z a h with h | rfl
  · exact h.quiet
  · refine ⟨?_, ?_, ?_, ?_, ?_, ?_⟩ <;> simp

/-! ### ELSE -/

theorem skipif_quiet1 {a : Tok} (h : Quiet a) (i t) : skipif i (a :: t) = skipif i t := by
  obtain ⟨h1, h2, _⟩ := h
  cases a <;> first | exact absurd rfl h1 | exact absurd rfl h2 | (cases i <;> rfl)

theorem skipif_quiet (l : List Tok) (h : ∀ a ∈ l, Quiet a) (i t) : skipif i (l ++ t) = skipif i t := by
  induction l with
  | nil => rfl
  | cons a l ih => rw [List.cons_append, skipif_quiet1 (h a (by simp)), ih (fun b hb => h b (by simp [hb]))]

theorem skipif_if (i t) : skipif i (.if_ :: t) = skipif (i + 1) t := by cases i <;> rfl

theorem skipif_else (i t) : skipif (i + 1) (.else_ :: t) = skipif i t := rfl

theorem skipif_head (i : Nat) (c : Ex) (t : List Tok) : skipif i (.if_ :: c.text 0 ++ [.then_] ++ t) = skipif (i + 1) t := by
  rw [List.cons_append, List.cons_append, skipif_if, List.append_assoc, skipif_quiet _ (quiet_text c 0), List.singleton_append,
    skipif_quiet1 (by refine ⟨?_, ?_, ?_, ?_, ?_, ?_⟩ <;> simp)]

theorem open_of_dangles (a : Stm) (h : a.dangles = true) : a.open = true := by
  induction a with
  | seq a s b _ ihb => exact ihb h
  | _ => first | rfl | exact absurd h (by simp [Stm.dangles])

theorem inline_snd (a : Stm) (h : a.inline = true) (k : Pos) : (a.text k).2 = k.2 := by
  induction a generalizing k with
  | seq a s b iha ihb =>
    simp only [Stm.inline, Bool.and_eq_true, decide_eq_true_eq] at h
    obtain ⟨⟨rfl, ha⟩, hb⟩ := h
    show (a.text (Sep.put .colon (b.text k))).2 = _
    rw [iha ha]
    exact ihb hb k
  | ifThen c a ih => exact ih h k
  | ifElse c a b iha ihb =>
    simp only [Stm.inline, Bool.and_eq_true] at h
    show (a.text _).2 = _
    rw [iha h.1]
    exact ihb h.2 k
  | for_ v x y z s₁ b s₂ n ih =>
    simp only [Stm.inline, Bool.and_eq_true, decide_eq_true_eq] at h
    obtain ⟨⟨rfl, rfl⟩, hb⟩ := h
    show (b.text _).2 = _
    rw [ih hb]; rfl
  | while_ c s₁ b s₂ ih =>
    simp only [Stm.inline, Bool.and_eq_true, decide_eq_true_eq] at h
    obtain ⟨⟨rfl, rfl⟩, hb⟩ := h
    show (b.text _).2 = _
    rw [ih hb]; rfl
  | _ => rfl

theorem sepOk_colon {a : Stm} (h : a.sepOk .colon = true) : a.dangles = false := by
  unfold Stm.sepOk at h
  simp at h
  by_contra q
  have := open_of_dangles a (by simpa using q)
  rw [h] at this
  cases this

theorem quietSome {a : Tok} (h : a ≠ .if_ ∧ a ≠ .else_ ∧ a ≠ .for_ ∧ a ≠ .next ∧ a ≠ .while_ ∧ a ≠ .wend) : Quiet a := h

theorem skipif_for (v : Var) (x y : Ex) (z : Option Ex) (i t) :
    skipif i (.for_ :: .var v :: .op .eq :: x.text 0 ++ .to_ :: y.text 0 ++ stepText z ++ t) = skipif i t := by
  have a1 : skipif i (.for_ :: .var v :: .op .eq :: x.text 0 ++ .to_ :: y.text 0 ++ stepText z ++ t) =
      skipif i (.for_ :: .var v :: .op .eq :: (x.text 0 ++ (.to_ :: (y.text 0 ++ (stepText z ++ t))))) := by simp
  rw [a1]
  have a2 : ∀ u, skipif i (.for_ :: .var v :: .op .eq :: u) = skipif i u := fun u => by cases i <;> rfl
  have a3 : ∀ u, skipif i (.to_ :: u) = skipif i u := fun u => by cases i <;> rfl
  rw [a2, skipif_quiet _ (quiet_text x 0), a3, skipif_quiet _ (quiet_text y 0), skipif_quiet _ (quiet_step z)]

/-- The search for ELSE passes over a statement on the line, and does not find anything in one at the end of the line. -/
theorem skipif_text (subs : Nat → Option Stm) (a : Stm) (hc : a.clear subs = true) (hi : a.inline = true) :
    (a.dangles = false → ∀ i k, skipif i (a.text k).1 = skipif i k.1) ∧ (∀ i k, k.1 = [] → skipif i (a.text k).1 = []) := by
  have fromA : (a.dangles = false → ∀ i k, skipif i (a.text k).1 = skipif i k.1) → a.dangles = false →
      ∀ i (k : Pos), k.1 = [] → skipif i (a.text k).1 = [] := fun h hd i k hk => by
    rw [h hd, hk]; cases i <;> rfl
  induction a with
  | rem =>
    refine ⟨fun h => (by cases h), fun i k hk => ?_⟩
    show skipif i (.rem :: k.1) = []
    rw [hk]; cases i <;> rfl
  | let_ kw v x =>
    have hA : ∀ i (k : Pos), skipif i ((Stm.let_ kw v x).text k).1 = skipif i k.1 := by
      intro i k
      show skipif i (((if kw then [.let_] else []) ++ .var v :: .op .eq :: x.text 0) ++ k.1) = _
      rw [List.append_assoc, skipif_quiet _ (by
        intro a ha; cases kw <;> simp at ha; subst ha; refine ⟨?_, ?_, ?_, ?_, ?_, ?_⟩ <;> simp)]
      have a2 : ∀ u, skipif i (.var v :: .op .eq :: u) = skipif i u := fun u => by cases i <;> rfl
      rw [List.cons_append, List.cons_append, a2, skipif_quiet _ (quiet_text x 0)]
    exact ⟨fun _ => hA, fromA (fun _ => hA) rfl⟩
  | seq a s b iha ihb =>
    simp only [Stm.clear, Stm.inline, Bool.and_eq_true, decide_eq_true_eq] at hc hi
    obtain ⟨⟨rfl, hia⟩, hib⟩ := hi
    obtain ⟨⟨hca, hcb⟩, hs⟩ := hc
    have hda := sepOk_colon hs
    have hA := (iha hca hia (fun h hd i k hk => by rw [h hd, hk]; cases i <;> rfl)).1 hda
    have hB := ihb hcb hib (fun h hd i k hk => by rw [h hd, hk]; cases i <;> rfl)
    have e1 : ∀ i (k : Pos), skipif i ((Stm.seq a .colon b).text k).1 = skipif i (b.text k).1 := fun i k => by
      show skipif i (a.text (Sep.put .colon (b.text k))).1 = _
      rw [hA]
      cases i <;> rfl
    exact ⟨fun hd i k => by rw [e1]; exact hB.1 hd i k, fun i k hk => by rw [e1]; exact hB.2 i k hk⟩
  | ifThen c a ih =>
    simp only [Stm.clear, Stm.inline, Bool.and_eq_true] at hc hi
    have hB := ih hc.1 hi (fun h hd i k hk => by rw [h hd, hk]; cases i <;> rfl)
    refine ⟨fun h => (by cases h), fun i k hk => ?_⟩
    show skipif i (.if_ :: c.text 0 ++ [.then_] ++ (a.text k).1) = []
    rw [skipif_head]
    exact hB.2 _ k hk
  | ifElse c a b iha ihb =>
    simp only [Stm.clear, Stm.inline, Bool.and_eq_true, Bool.not_eq_true'] at hc hi
    obtain ⟨⟨⟨⟨hca, hcb⟩, _⟩, _⟩, hd⟩ := hc
    have hA := (iha hca hi.1 (fun h hd i k hk => by rw [h hd, hk]; cases i <;> rfl)).1 hd
    have hB := ihb hcb hi.2 (fun h hd i k hk => by rw [h hd, hk]; cases i <;> rfl)
    have e1 : ∀ i (k : Pos), skipif i ((Stm.ifElse c a b).text k).1 = skipif i (b.text k).1 := fun i k => by
      show skipif i (.if_ :: c.text 0 ++ [.then_] ++ (a.text (pre [.else_] (b.text k))).1) = _
      rw [skipif_head, hA]
      rfl
    exact ⟨fun hd i k => by rw [e1]; exact hB.1 hd i k, fun i k hk => by rw [e1]; exact hB.2 i k hk⟩
  | for_ v x y z s₁ b s₂ n ih =>
    simp only [Stm.clear, Stm.inline, Bool.and_eq_true, decide_eq_true_eq] at hc hi
    obtain ⟨⟨rfl, rfl⟩, hib⟩ := hi
    have hd := sepOk_colon hc.1.2
    have hA := (ih hc.1.1.1 hib (fun h hd i k hk => by rw [h hd, hk]; cases i <;> rfl)).1 hd
    have e1 : ∀ i (k : Pos), skipif i ((Stm.for_ v x y z .colon b .colon n).text k).1 = skipif i k.1 := fun i k => by
      show skipif i (.for_ :: .var v :: .op .eq :: x.text 0 ++ .to_ :: y.text 0 ++ stepText z ++ (Tok.colon :: (b.text _).1)) = _
      rw [skipif_for]
      have a2 : ∀ u, skipif i (.colon :: u) = skipif i u := fun u => by cases i <;> rfl
      rw [a2, hA]
      cases n <;> cases i <;> rfl
    exact ⟨fun _ => e1, fromA (fun _ => e1) rfl⟩
  | while_ c s₁ b s₂ ih =>
    simp only [Stm.clear, Stm.inline, Bool.and_eq_true, decide_eq_true_eq] at hc hi
    obtain ⟨⟨rfl, rfl⟩, hib⟩ := hi
    have hd := sepOk_colon hc.2
    have hA := (ih hc.1 hib (fun h hd i k hk => by rw [h hd, hk]; cases i <;> rfl)).1 hd
    have e1 : ∀ i (k : Pos), skipif i ((Stm.while_ c .colon b .colon).text k).1 = skipif i k.1 := fun i k => by
      show skipif i (.while_ :: c.text 0 ++ (Tok.colon :: (b.text _).1)) = _
      have a1 : ∀ u, skipif i (.while_ :: u) = skipif i u := fun u => by cases i <;> rfl
      have a2 : ∀ u, skipif i (.colon :: u) = skipif i u := fun u => by cases i <;> rfl
      rw [List.cons_append, a1, skipif_quiet _ (quiet_text c 0), a2, hA]
      cases i <;> rfl
    exact ⟨fun _ => e1, fromA (fun _ => e1) rfl⟩
  | gosub n =>
    have hA : ∀ i (k : Pos), skipif i ((Stm.gosub n).text k).1 = skipif i k.1 := fun i k => by cases i <;> rfl
    exact ⟨fun _ => hA, fromA (fun _ => hA) rfl⟩
  | save x =>
    have hA : ∀ i (k : Pos), skipif i ((Stm.save x).text k).1 = skipif i k.1 := fun i k => by
      show skipif i (.save :: x.text 0 ++ k.1) = _
      have a1 : ∀ u, skipif i (.save :: u) = skipif i u := fun u => by cases i <;> rfl
      rw [List.cons_append, a1, skipif_quiet _ (quiet_text x 0)]
    exact ⟨fun _ => hA, fromA (fun _ => hA) rfl⟩
  | punch x =>
    have hA : ∀ i (k : Pos), skipif i ((Stm.punch x).text k).1 = skipif i k.1 := fun i k => by
      show skipif i (.punch :: x.text 0 ++ k.1) = _
      have a1 : ∀ u, skipif i (.punch :: u) = skipif i u := fun u => by cases i <;> rfl
      rw [List.cons_append, a1, skipif_quiet _ (quiet_text x 0)]
    exact ⟨fun _ => hA, fromA (fun _ => hA) rfl⟩

/-! ### WEND -/

/-- The search for WEND from a place. -/
def sw (i : Nat) (k : Pos) : Option Pos := skiploop .while_ .wend i k.1 k.2

theorem sw_quiet1 {a : Tok} (h1 : a ≠ .while_) (h2 : a ≠ .wend) (i t m) : sw i (a :: t, m) = sw i (t, m) := by
  unfold sw
  cases m <;> simp only [skiploop, huntLine, if_neg h1, if_neg h2]

theorem sw_pre (l : List Tok) (h : ∀ a ∈ l, Quiet a) (i k) : sw i (pre l k) = sw i k := by
  induction l with
  | nil => rfl
  | cons a l ih =>
    have ha := h a (by simp)
    have := sw_quiet1 ha.2.2.2.2.1 ha.2.2.2.2.2 i (l ++ k.1) k.2
    exact this.trans (ih (fun b hb => h b (by simp [hb])))

theorem sw_put (s : Sep) (i k) : sw i (s.put k) = sw i k := by
  cases s with
  | colon => exact sw_quiet1 (by simp) (by simp) i k.1 k.2
  | line n => rfl

theorem sw_while (i t m) : sw i (.while_ :: t, m) = sw (i + 1) (t, m) := by
  unfold sw
  cases m <;> simp only [skiploop, huntLine, if_true]

theorem sw_wend (i t m) : sw (i + 1) (.wend :: t, m) = sw i (t, m) := by
  unfold sw
  cases m <;> simp [skiploop, huntLine]

theorem sw_found (t m) : sw 0 (.wend :: t, m) = some (t, m) := by
  unfold sw
  cases m <;> simp [skiploop, huntLine]

theorem sw_tok {a : Tok} (h1 : a ≠ .while_) (h2 : a ≠ .wend) (l : List Tok) (i k) : sw i (pre (a :: l) k) = sw i (pre l k) :=
  sw_quiet1 h1 h2 i (l ++ k.1) k.2

theorem pre_pre (a b : List Tok) (k) : pre (a ++ b) k = pre a (pre b k) := by
  unfold pre; simp

theorem sw_text (a : Stm) (i k) : sw i (a.text k) = sw i k := by
  induction a generalizing i k with
  | rem => exact sw_quiet1 (by simp) (by simp) i k.1 k.2
  | let_ kw v x =>
    show sw i (pre ((if kw then [.let_] else []) ++ .var v :: .op .eq :: x.text 0) k) = _
    rw [pre_pre, sw_pre _ (by
      intro a ha; cases kw <;> simp at ha; subst ha; refine ⟨?_, ?_, ?_, ?_, ?_, ?_⟩ <;> simp),
      sw_tok (by simp) (by simp), sw_tok (by simp) (by simp), sw_pre _ (quiet_text x 0)]
  | seq a s b iha ihb =>
    show sw i (a.text (s.put (b.text k))) = _
    rw [iha, sw_put, ihb]
  | ifThen c a ih =>
    show sw i (pre (.if_ :: c.text 0 ++ [.then_]) (a.text k)) = _
    rw [pre_pre, sw_tok (by simp) (by simp), sw_pre _ (quiet_text c 0), sw_tok (by simp) (by simp)]
    exact ih i k
  | ifElse c a b iha ihb =>
    show sw i (pre (.if_ :: c.text 0 ++ [.then_]) (a.text (pre [.else_] (b.text k)))) = _
    rw [pre_pre, sw_tok (by simp) (by simp), sw_pre _ (quiet_text c 0), sw_tok (by simp) (by simp)]
    show sw i (a.text _) = _
    rw [iha, sw_tok (by simp) (by simp)]
    exact ihb i k
  | for_ v x y z s₁ b s₂ n ih =>
    show sw i (pre (.for_ :: .var v :: .op .eq :: x.text 0 ++ .to_ :: y.text 0 ++ stepText z)
      (s₁.put (b.text (s₂.put (pre (.next :: if n then [.var v] else []) k))))) = _
    rw [pre_pre, pre_pre]
    have a1 : ∀ q, sw i (pre (.for_ :: .var v :: .op .eq :: x.text 0) q) = sw i q := fun q => by
      rw [sw_tok (by simp) (by simp), sw_tok (by simp) (by simp), sw_tok (by simp) (by simp), sw_pre _ (quiet_text x 0)]
    rw [a1, sw_tok (by simp) (by simp), sw_pre _ (quiet_text y 0), sw_pre _ (quiet_step z), sw_put, ih, sw_put,
      sw_tok (by simp) (by simp), sw_pre]
    intro a ha
    cases n <;> simp at ha
    subst ha
    refine ⟨?_, ?_, ?_, ?_, ?_, ?_⟩ <;> simp
  | while_ c s₁ b s₂ ih =>
    show sw i (pre (.while_ :: c.text 0) (s₁.put (b.text (s₂.put (pre [.wend] k))))) = _
    have a1 : ∀ q, sw i (pre (.while_ :: c.text 0) q) = sw (i + 1) q := fun q => by
      have := sw_while i (c.text 0 ++ q.1) q.2
      exact this.trans (sw_pre _ (quiet_text c 0) (i + 1) q)
    rw [a1, sw_put, ih, sw_put]
    exact sw_wend i k.1 k.2
  | gosub n =>
    show sw i (pre [.gosub, .num n] k) = _
    rw [sw_tok (by simp) (by simp), sw_tok (by simp) (by simp)]; rfl
  | save x =>
    show sw i (pre (.save :: x.text 0) k) = _
    rw [sw_tok (by simp) (by simp), sw_pre _ (quiet_text x 0)]
  | punch x =>
    show sw i (pre (.punch :: x.text 0) k) = _
    rw [sw_tok (by simp) (by simp), sw_pre _ (quiet_text x 0)]

/-! ### NEXT -/

/-- The search for the NEXT of a loop of `v` from a place. -/
def sf (v : Var) (i j : Nat) (k : Pos) : Option Pos := skipfor v i j k.1 k.2

theorem sf_quiet1 (v : Var) {a : Tok} (h1 : a ≠ .for_) (h2 : a ≠ .next) (i j t m) : sf v i j (a :: t, m) = sf v i j (t, m) := by
  have : huntFor v i j (a :: t) = huntFor v i j t := by
    cases a <;> first | exact absurd rfl h1 | exact absurd rfl h2 | rfl
  unfold sf
  cases m <;> simp only [skipfor, this]

theorem sf_pre (v : Var) (l : List Tok) (h : ∀ a ∈ l, Quiet a) (i j k) : sf v i j (pre l k) = sf v i j k := by
  induction l with
  | nil => rfl
  | cons a l ih =>
    have ha := h a (by simp)
    have := sf_quiet1 v ha.2.2.1 ha.2.2.2.1 i j (l ++ k.1) k.2
    exact this.trans (ih (fun b hb => h b (by simp [hb])))

theorem sf_tok (v : Var) {a : Tok} (h1 : a ≠ .for_) (h2 : a ≠ .next) (l : List Tok) (i j k) :
    sf v i j (pre (a :: l) k) = sf v i j (pre l k) := sf_quiet1 v h1 h2 i j (l ++ k.1) k.2

theorem sf_put (v : Var) (s : Sep) (i j k) : sf v i j (s.put k) = sf v i j k := by
  cases s with
  | colon => exact sf_quiet1 v (by simp) (by simp) i j k.1 k.2
  | line n => rfl

theorem sf_for (v w : Var) (i j t m) :
    sf v i j (.for_ :: .var w :: t, m) = if w = v then sf v i (j + 1) (t, m) else sf v (i + 1) j (t, m) := by
  have : huntFor v i j (.for_ :: .var w :: t) = if w = v then huntFor v i (j + 1) t else huntFor v (i + 1) j t := by
    simp [huntFor]
  unfold sf
  by_cases h : w = v
  · rw [if_pos h] at this ⊢
    cases m <;> simp only [skipfor, this]
  · rw [if_neg h] at this ⊢
    cases m <;> simp only [skipfor, this]

theorem sf_next_same (v : Var) (i j t m) : sf v i (j + 1) (.next :: .var v :: t, m) = sf v i j (t, m) := by
  have : huntFor v i (j + 1) (.next :: .var v :: t) = huntFor v i j t := by simp [huntFor]
  unfold sf
  cases m <;> simp only [skipfor, this]

theorem sf_next_other {v : Var} {t : List Tok} (h : t.head? ≠ some (.var v)) (i j m) :
    sf v (i + 1) j (.next :: t, m) = sf v i j (t, m) := by
  have : huntFor v (i + 1) j (.next :: t) = huntFor v i j t := by simp [huntFor, h]
  unfold sf
  cases m <;> simp only [skipfor, this]

theorem sf_found_same (v : Var) (i t m) : sf v i 0 (.next :: .var v :: t, m) = some (.var v :: t, m) := by
  have : huntFor v i 0 (.next :: .var v :: t) = .found (.var v :: t) := by simp [huntFor]
  unfold sf
  cases m <;> simp only [skipfor, this]

theorem sf_found {v : Var} {t : List Tok} (h : t.head? ≠ some (.var v)) (j m) : sf v 0 j (.next :: t, m) = some (t, m) := by
  have : huntFor v 0 j (.next :: t) = .found t := by simp [huntFor, h]
  unfold sf
  cases m <;> simp only [skipfor, this]

theorem eos_put (s : Sep) (k) : iseos (s.put k).1 = true := by cases s <;> rfl

theorem eos_var {t : List Tok} (h : iseos t = true) (v : Var) : t.head? ≠ some (.var v) := by
  cases t with
  | nil => simp
  | cons a t => cases a <;> first | (simp; done) | (simp [iseos] at h)

theorem sf_text (v : Var) (a : Stm) (hu : a.unnamed v = false) (i j : Nat) (k : Pos) (hk : iseos k.1 = true) :
    sf v i j (a.text k) = sf v i j k := by
  induction a generalizing i j k with
  | rem => exact sf_quiet1 v (by simp) (by simp) i j k.1 k.2
  | let_ kw w x =>
    show sf v i j (pre ((if kw then [.let_] else []) ++ .var w :: .op .eq :: x.text 0) k) = _
    rw [pre_pre, sf_pre v _ (by
      intro a ha; cases kw <;> simp at ha; subst ha; refine ⟨?_, ?_, ?_, ?_, ?_, ?_⟩ <;> simp),
      sf_tok v (by simp) (by simp), sf_tok v (by simp) (by simp), sf_pre v _ (quiet_text x 0)]
  | seq a s b iha ihb =>
    simp only [Stm.unnamed, Bool.or_eq_false_iff] at hu
    show sf v i j (a.text (s.put (b.text k))) = _
    rw [iha hu.1 i j _ (eos_put s _), sf_put, ihb hu.2 i j k hk]
  | ifThen c a ih =>
    show sf v i j (pre (.if_ :: c.text 0 ++ [.then_]) (a.text k)) = _
    rw [pre_pre, sf_tok v (by simp) (by simp), sf_pre v _ (quiet_text c 0), sf_tok v (by simp) (by simp)]
    exact ih hu i j k hk
  | ifElse c a b iha ihb =>
    simp only [Stm.unnamed, Bool.or_eq_false_iff] at hu
    show sf v i j (pre (.if_ :: c.text 0 ++ [.then_]) (a.text (pre [.else_] (b.text k)))) = _
    rw [pre_pre, sf_tok v (by simp) (by simp), sf_pre v _ (quiet_text c 0), sf_tok v (by simp) (by simp)]
    show sf v i j (a.text _) = _
    rw [iha hu.1 i j _ rfl, sf_tok v (by simp) (by simp)]
    exact ihb hu.2 i j k hk
  | for_ w x y z s₁ b s₂ n ih =>
    simp only [Stm.unnamed, Bool.or_eq_false_iff] at hu
    show sf v i j (pre (.for_ :: .var w :: .op .eq :: x.text 0 ++ .to_ :: y.text 0 ++ stepText z)
      (s₁.put (b.text (s₂.put (pre (.next :: if n then [.var w] else []) k))))) = _
    rw [pre_pre, pre_pre]
    have a1 : ∀ q, sf v i j (pre (.for_ :: .var w :: .op .eq :: x.text 0) q) =
        if w = v then sf v i (j + 1) q else sf v (i + 1) j q := fun q => by
      have := sf_for v w i j (.op .eq :: x.text 0 ++ q.1) q.2
      have e1 : ∀ i j, sf v i j (.op .eq :: x.text 0 ++ q.1, q.2) = sf v i j q := fun i j =>
        (sf_tok v (by simp) (by simp) (x.text 0) i j q).trans (sf_pre v _ (quiet_text x 0) i j q)
      rw [e1, e1] at this
      exact this
    have a2 : ∀ i j q, sf v i j (pre (.to_ :: y.text 0) (pre (stepText z) (s₁.put (b.text (s₂.put q))))) = sf v i j q :=
      fun i j q => by
        rw [sf_tok v (by simp) (by simp), sf_pre v _ (quiet_text y 0), sf_pre v _ (quiet_step z), sf_put, ih hu.2 i j _ (eos_put s₂ _),
          sf_put]
    rw [a1, a2, a2]
    by_cases hw : w = v
    · subst hw
      rw [if_pos rfl]
      have hn : n = true := by simpa using hu.1
      subst hn
      exact sf_next_same w i j k.1 k.2
    · rw [if_neg hw]
      cases n with
      | false => exact sf_next_other (eos_var hk v) i j k.2
      | true =>
        have h1 := sf_next_other (v := v) (t := .var w :: k.1) (by simpa using hw) i j k.2
        exact h1.trans (sf_quiet1 v (by simp) (by simp) i j k.1 k.2)
  | while_ c s₁ b s₂ ih =>
    show sf v i j (pre (.while_ :: c.text 0) (s₁.put (b.text (s₂.put (pre [.wend] k))))) = _
    rw [sf_tok v (by simp) (by simp), sf_pre v _ (quiet_text c 0), sf_put, ih hu i j _ (eos_put s₂ _), sf_put,
      sf_tok v (by simp) (by simp)]
    rfl
  | gosub n =>
    show sf v i j (pre [.gosub, .num n] k) = _
    rw [sf_tok v (by simp) (by simp), sf_tok v (by simp) (by simp)]; rfl
  | save x =>
    show sf v i j (pre (.save :: x.text 0) k) = _
    rw [sf_tok v (by simp) (by simp), sf_pre v _ (quiet_text x 0)]
  | punch x =>
    show sf v i j (pre (.punch :: x.text 0) k) = _
    rw [sf_tok v (by simp) (by simp), sf_pre v _ (quiet_text x 0)]

end Verif.Basic
