import Verif.Spec.Lines
import Mathlib.Tactic.SplitIfs
namespace Verif.Lines
open CText (isSpace splitBy)

/-! ### getc -/

theorem decode_getc (s : Text) : (getc s).map (fun p => p.1 :: decode p.2) = if s = [] then none else some (decode s) := by
  match s with
  | [] => rfl
  | [c] => rfl
  | c :: d :: r =>
    simp only [getc, decode]
    split_ifs with h <;> simp_all

theorem decode_eq_unix (s : Text) : decode s = unix s := by
  match s with
  | [] => rfl
  | [c] => simp [decode, unix]
  | c :: d :: r =>
    rw [decode, unix]
    by_cases h : c = '\r' ∧ d = '\n'
    · obtain ⟨rfl, rfl⟩ := h
      rw [decode_eq_unix r]
      simp [unix]
    · rw [if_neg h, decode_eq_unix (d :: r)]
      rw [if_neg (by simpa using h)]
termination_by s.length

/-! ### glue and split -/

theorem glue_ne (t : Text) (ls : List Text) : glue t ls ≠ [] := by cases ls <;> simp [glue]

theorem glue_glue (a b : Text) {ls : List Text} (h : ls ≠ []) : glue a (glue b ls) = glue (a ++ b) ls := by
  cases ls with
  | nil => exact absurd rfl h
  | cons l ls => simp [glue]

theorem glue_nil {ls : List Text} (h : ls ≠ []) : glue [] ls = ls := by
  cases ls with
  | nil => exact absurd rfl h
  | cons l ls => simp [glue]

theorem split_ne (p : Char → Bool) (s : Text) : splitBy p s ≠ [] := by
  cases s with
  | nil => simp [splitBy]
  | cons c s =>
    unfold splitBy
    split
    · simp
    · split <;> simp

theorem split_cons {p : Char → Bool} {c : Char} (h : p c = false) (s : Text) : splitBy p (c :: s) = glue [c] (splitBy p s) := by
  have hn := split_ne p s
  rw [splitBy]
  simp only [h, Bool.false_eq_true, if_false]
  cases hs : splitBy p s with
  | nil => exact absurd hs hn
  | cons l ls => simp [glue]

theorem split_sep {p : Char → Bool} {c : Char} (h : p c = true) (s : Text) : splitBy p (c :: s) = [] :: splitBy p s := by
  rw [splitBy]; simp only [h, if_true]

theorem split_append {p : Char → Bool} (a : Text) (h : ∀ c ∈ a, p c = false) (s : Text) :
    splitBy p (a ++ s) = glue a (splitBy p s) := by
  induction a with
  | nil => rw [glue_nil (split_ne _ _)]; rfl
  | cons c a ih =>
    rw [List.cons_append, split_cons (h c (by simp)), ih fun d hd => h d (by simp [hd]), glue_glue _ _ (split_ne _ _)]
    rfl

/-! ### continued and joined -/

theorem dropWhile_nil {p : Char → Bool} (l : Text) : l.dropWhile p = [] ↔ l.all p = true := by
  induction l with
  | nil => simp
  | cons c l ih =>
    rw [List.dropWhile_cons]
    by_cases h : p c = true
    · simp [h, ih]
    · simp [h]

theorem takeWhile_nohash {a : Text} (h : '#' ∉ a) : a.takeWhile (· != '#') = a := by
  induction a with
  | nil => rfl
  | cons c a ih =>
    simp only [List.mem_cons, not_or] at h
    rw [List.takeWhile_cons, if_pos (by simpa using Ne.symm h.1), ih h.2]

theorem continued_cons {c : Char} (hc : c ≠ '#') (l : Text) :
    continued (c :: l) =
      match continued l with
      | some t => some (c :: t)
      | none => if c = '\\' ∧ l.all isSpace = true then some [] else none := by
  unfold continued
  have hmem : ('#' ∈ c :: l) ↔ ('#' ∈ l) := by simp [Ne.symm hc]
  by_cases hl : '#' ∈ l
  · have : ¬ (l.all isSpace = true) := by
      intro h; rw [List.all_eq_true] at h; exact absurd (h _ hl) (by decide)
    simp [hmem, hl, this]
  · simp only [hmem, hl, if_false]
    rw [List.reverse_cons, List.dropWhile_append]
    cases hd : l.reverse.dropWhile isSpace with
    | nil =>
      have hall : l.all isSpace = true := by
        have := (dropWhile_nil _).1 hd
        rwa [List.all_reverse] at this
      simp only [List.isEmpty_nil, if_true, hall, and_true, beforeBackslash]
      by_cases hs : isSpace c = true
      · have : c ≠ '\\' := by intro h; rw [h] at hs; exact absurd hs (by decide)
        simp [hs, this, beforeBackslash]
      · simp [hs, beforeBackslash]
    | cons x t =>
      have hall : ¬ (l.all isSpace = true) := by
        intro h
        rw [← List.all_reverse] at h
        rw [(dropWhile_nil _).2 h] at hd; cases hd
      simp only [List.isEmpty_cons, Bool.false_eq_true, if_false, hall, and_false, beforeBackslash, List.cons_append]
      by_cases hx : x = '\\' <;> simp [hx]

theorem code_cons {c : Char} (hc : c ≠ '#') (l : Text) : code (c :: l) = c :: code l := by
  rw [code, List.takeWhile_cons, if_pos (by simpa using hc)]; rfl

theorem joined_ne {ls : List Text} (h : ls ≠ []) : joined ls ≠ [] := by
  cases ls with
  | nil => exact absurd rfl h
  | cons l ls =>
    unfold joined
    split
    · simp
    · split
      · exact glue_ne _ _
      · simp

theorem joined_one (l : Text) : joined [l] = [code l] := by simp [joined]

theorem joined_more (l m : Text) (ls : List Text) : joined (l :: m :: ls) =
    match continued l with
    | some t => glue t (joined (m :: ls))
    | none => code l :: joined (m :: ls) := by
  rw [joined, if_neg (by simp)]
  cases continued l <;> rfl

theorem joined_cons {c : Char} (hc : c ≠ '#') (l : Text) (ls : List Text) (hb : c = '\\' → ls ≠ [] → l.all isSpace = false) :
    joined ((c :: l) :: ls) = glue [c] (joined (l :: ls)) := by
  cases ls with
  | nil => rw [joined_one, joined_one, code_cons hc]; rfl
  | cons m ls =>
    rw [joined_more, joined_more, continued_cons hc]
    cases hcl : continued l with
    | some t =>
      simp only
      rw [glue_glue _ _ (joined_ne (by simp))]; rfl
    | none =>
      have : ¬ (c = '\\' ∧ l.all isSpace = true) := by
        rintro ⟨h1, h2⟩
        rw [hb h1 (by simp)] at h2; cases h2
      simp only [this, if_false, code_cons hc, glue]
      rfl

/-! ### logical lines of a text -/

theorem L_ne (s : Text) : logicalLines s ≠ [] := by
  unfold logicalLines
  have h := joined_ne (split_ne (· == '\n') s)
  cases hj : joined (splitBy (· == '\n') s) with
  | nil => exact absurd hj h
  | cons l ls =>
    have := split_ne (· == ';') l
    cases hl : splitBy (· == ';') l with
    | nil => exact absurd hl this
    | cons a b => simp [hl]

theorem flat_glue {c : Char} (hc : c ≠ ';') {ls : List Text} (h : ls ≠ []) :
    (glue [c] ls).flatMap (splitBy (· == ';')) = glue [c] (ls.flatMap (splitBy (· == ';'))) := by
  cases ls with
  | nil => exact absurd rfl h
  | cons l ls =>
    have hn := split_ne (· == ';') l
    simp only [glue, List.flatMap_cons, List.singleton_append]
    rw [split_cons (by simpa using hc)]
    cases hl : splitBy (· == ';') l with
    | nil => exact absurd hl hn
    | cons a b => simp [glue]

theorem flat_semi {ls : List Text} (h : ls ≠ []) :
    (glue [';'] ls).flatMap (splitBy (· == ';')) = [] :: ls.flatMap (splitBy (· == ';')) := by
  cases ls with
  | nil => exact absurd rfl h
  | cons l ls =>
    simp only [glue, List.flatMap_cons, List.singleton_append]
    rw [split_sep (by rfl)]; simp

theorem L_nil : logicalLines [] = [[]] := by decide

theorem L_nl (s : Text) : logicalLines ('\n' :: s) = [] :: logicalLines s := by
  unfold logicalLines
  rw [split_sep (by rfl)]
  have hn := split_ne (· == '\n') s
  cases hs : splitBy (· == '\n') s with
  | nil => exact absurd hs hn
  | cons l ls =>
    rw [joined_more, show continued [] = none by decide]
    simp [code, splitBy]

/-- The part up to the line end is joined only with a non-blank following part. -/
theorem L_semi (s : Text) : logicalLines (';' :: s) = [] :: logicalLines s := by
  unfold logicalLines
  have hn := split_ne (· == '\n') s
  rw [split_cons (by decide)]
  cases hs : splitBy (· == '\n') s with
  | nil => exact absurd hs hn
  | cons l ls =>
    rw [glue, List.singleton_append, joined_cons (by decide) _ _ (fun h => absurd h (by decide)), flat_semi (joined_ne (by simp))]

theorem L_cons {c : Char} (s : Text) (h1 : c ≠ '#') (h2 : c ≠ ';') (h3 : c ≠ '\n')
    (hb : c = '\\' → ∀ h t, splitBy (· == '\n') s = h :: t → t ≠ [] → h.all isSpace = false) :
    logicalLines (c :: s) = glue [c] (logicalLines s) := by
  unfold logicalLines
  have hn := split_ne (· == '\n') s
  rw [split_cons (by simpa using h3)]
  cases hs : splitBy (· == '\n') s with
  | nil => exact absurd hs hn
  | cons l ls =>
    rw [glue, List.singleton_append, joined_cons h1 _ _ (fun hc hl => hb hc _ _ hs hl), flat_glue h2 (joined_ne (by simp))]

/-- Blanks that are not line ends. -/
def Blank (bl : Text) : Prop := ∀ c ∈ bl, isSpace c = true ∧ c ≠ '\n'

theorem blank_plain {c : Char} (h : isSpace c = true) : c ≠ '#' ∧ c ≠ ';' ∧ c ≠ '\\' := by
  refine ⟨?_, ?_, ?_⟩ <;> · intro hc; rw [hc] at h; exact absurd h (by decide)

theorem L_blank (bl : Text) (h : Blank bl) (s : Text) : logicalLines (bl ++ s) = glue bl (logicalLines s) := by
  induction bl with
  | nil => rw [glue_nil (L_ne _)]; rfl
  | cons c bl ih =>
    have hc := h c (by simp)
    obtain ⟨a, b, d⟩ := blank_plain hc.1
    rw [List.cons_append, L_cons _ a b hc.2 (fun hx => absurd hx d), ih fun x hx => h x (by simp [hx]), glue_glue _ _ (L_ne _)]
    rfl

theorem blank_nonl {bl : Text} (h : Blank bl) : ∀ c ∈ bl, (c == '\n') = false := fun c hc => by simpa using (h c hc).2

/-- A backslash that is followed by a visible character in the same line. -/
theorem L_back_visible (bl : Text) (h : Blank bl) (x : Char) (hx : isSpace x = false) (s : Text) :
    logicalLines ('\\' :: (bl ++ x :: s)) = glue ('\\' :: bl) (logicalLines (x :: s)) := by
  have hxn : x ≠ '\n' := by intro hc; rw [hc] at hx; exact absurd hx (by decide)
  rw [L_cons _ (by decide) (by decide) (by decide), L_blank bl h, glue_glue _ _ (L_ne _)]
  · rfl
  · intro _ l t hl _
    rw [split_append _ (blank_nonl h), split_cons (by simpa using hxn), glue_glue _ _ (split_ne _ _)] at hl
    have hn := split_ne (· == '\n') s
    cases hs : splitBy (· == '\n') s with
    | nil => exact absurd hs hn
    | cons a b =>
      rw [hs, glue] at hl
      rw [← (List.cons.inj hl).1]
      simp [hx]

/-- A backslash at the end of the text. -/
theorem L_back_end (bl : Text) (h : Blank bl) : logicalLines ('\\' :: bl) = ['\\' :: bl] := by
  rw [L_cons _ (by decide) (by decide) (by decide)]
  · have := L_blank bl h []
    rw [List.append_nil, L_nil] at this
    rw [this]; simp [glue]
  · intro _ l t hl ht
    have := split_append bl (blank_nonl h) []
    rw [List.append_nil] at this
    rw [this] at hl
    simp [splitBy, glue] at hl
    exact absurd hl.2 ht

theorem dropWhile_blank {bl : Text} (h : Blank bl) (r : Text) : (bl ++ r).dropWhile isSpace = r.dropWhile isSpace := by
  induction bl with
  | nil => rfl
  | cons c bl ih =>
    rw [List.cons_append, List.dropWhile_cons, if_pos (h c (by simp)).1]
    exact ih fun x hx => h x (by simp [hx])

/-- A backslash followed by blanks and a line end. -/
theorem L_back_nl (bl : Text) (h : Blank bl) (s : Text) : logicalLines ('\\' :: (bl ++ '\n' :: s)) = logicalLines s := by
  have e : splitBy (· == '\n') ('\\' :: (bl ++ '\n' :: s)) = ('\\' :: bl) :: splitBy (· == '\n') s := by
    rw [split_cons (by decide), split_append _ (blank_nonl h), split_sep (by rfl), glue_glue _ _ (by simp)]
    simp [glue]
  unfold logicalLines
  rw [e]
  have hn := split_ne (· == '\n') s
  cases hs : splitBy (· == '\n') s with
  | nil => exact absurd hs hn
  | cons l ls =>
    rw [joined_more]
    · have hc : continued ('\\' :: bl) = some [] := by
        rw [continued_cons (by decide)]
        have hall : bl.all isSpace = true := by
          rw [List.all_eq_true]; exact fun c hc => (h c hc).1
        have : continued bl = none := by
          unfold continued
          split
          · rfl
          · have : bl.reverse.dropWhile isSpace = [] := by
              rw [dropWhile_nil, List.all_eq_true]; intro c hc; exact (h c (by simpa using hc)).1
            rw [this]; rfl
        rw [this]; simp [hall]
      rw [hc]
      simp only
      rw [glue_nil (joined_ne (by simp))]

/-! ### clean texts -/

theorem clean_line_tail {c : Char} {l : Text} (hc : c ≠ '#') (h : CleanLine (c :: l)) : CleanLine l := by
  intro a b e ha
  exact h (c :: a) b (by rw [e]; rfl) (by simp [Ne.symm hc, ha])

theorem clean_tail {c : Char} {s : Text} (hc : c ≠ '#') (h : Clean (c :: s)) : Clean s := by
  unfold Clean at h ⊢
  by_cases hn : c = '\n'
  · subst hn
    rw [split_sep (by rfl)] at h
    exact fun l hl => h l (List.mem_cons_of_mem _ hl)
  · rw [split_cons (by simpa using hn)] at h
    have hne := split_ne (· == '\n') s
    cases hs : splitBy (· == '\n') s with
    | nil => exact absurd hs hne
    | cons l ls =>
      rw [hs] at h
      simp only [glue, List.singleton_append] at h
      intro m hm
      rcases List.mem_cons.1 hm with rfl | hm
      · exact clean_line_tail hc (h _ (by simp))
      · exact h m (by simp [hm])

theorem clean_append {a s : Text} (ha : '#' ∉ a) (h : Clean (a ++ s)) : Clean s := by
  induction a with
  | nil => exact h
  | cons c a ih =>
    simp only [List.mem_cons, not_or] at ha
    exact ih ha.2 (clean_tail (Ne.symm ha.1) h)

theorem clean_visible {bl : Text} (hb : Blank bl) {x : Char} (hx : isSpace x = false) {s : Text}
    (h : Clean ('\\' :: (bl ++ x :: s))) : x ≠ '#' ∧ x ≠ ';' := by
  have hxn : x ≠ '\n' := by intro hc; rw [hc] at hx; exact absurd hx (by decide)
  have hn := split_ne (· == '\n') s
  unfold Clean at h
  rw [split_cons (by decide), split_append _ (blank_nonl hb), split_cons (by simpa using hxn), glue_glue _ _ (split_ne _ _),
    glue_glue _ _ (split_ne _ _)] at h
  cases hs : splitBy (· == '\n') s with
  | nil => exact absurd hs hn
  | cons a b =>
    rw [hs, glue] at h
    have := h (['\\'] ++ (bl ++ [x]) ++ a) (List.mem_cons_self ..) [] (bl ++ x :: a) (by simp) (by simp)
    rw [dropWhile_blank hb] at this
    exact this x (by simp [List.dropWhile, hx])

/-! ### the loops -/

theorem cont_spec (r : Text) : ∀ (acc bl : Text), '#' ∉ acc → Blank bl → Clean ('\\' :: (bl ++ r)) →
    glue acc (logicalLines ('\\' :: (bl ++ r))) =
      glue (cont (acc ++ '\\' :: bl) acc.length r).1 (logicalLines (cont (acc ++ '\\' :: bl) acc.length r).2) ∧
    '#' ∉ (cont (acc ++ '\\' :: bl) acc.length r).1 ∧ Clean (cont (acc ++ '\\' :: bl) acc.length r).2 := by
  induction r with
  | nil =>
    intro acc bl ha hb hc
    simp only [List.append_nil, cont]
    rw [L_back_end bl hb, L_nil]
    refine ⟨by simp [glue], ?_, fun l hl => ?_⟩
    · simp only [List.mem_append, List.mem_cons, not_or]
      exact ⟨ha, by decide, fun h => (blank_plain (hb _ h).1).1 rfl⟩
    · simp [splitBy] at hl; subst hl; intro a b e; simp at e
  | cons c r ih =>
    intro acc bl ha hb hc
    have hhash : '#' ∉ '\\' :: bl := by
      simp only [List.mem_cons, not_or]; exact ⟨by decide, fun h => (blank_plain (hb _ h).1).1 rfl⟩
    unfold cont
    by_cases h1 : c = '\\'
    · subst h1
      rw [if_pos rfl]
      have hc' : Clean ('\\' :: ([] ++ r)) := clean_append (a := '\\' :: bl) hhash hc
      have := ih (acc ++ '\\' :: bl) [] (by rw [List.mem_append, not_or]; exact ⟨ha, hhash⟩) (by intro c hc; cases hc) hc'
      rw [L_back_visible bl hb _ (by decide), glue_glue _ _ (L_ne _)]
      exact this
    · rw [if_neg h1]
      by_cases h2 : c = '\n'
      · subst h2
        rw [if_pos rfl, L_back_nl bl hb]
        rw [List.take_left' rfl]
        refine ⟨rfl, ha, ?_⟩
        have : Clean ('\n' :: r) := clean_append (a := '\\' :: bl) hhash hc
        exact clean_tail (by decide) this
      · rw [if_neg h2]
        by_cases h3 : isSpace c = false
        · rw [if_pos h3]
          obtain ⟨v1, v2⟩ := clean_visible hb h3 hc
          rw [L_back_visible bl hb _ h3, L_cons r v1 v2 h2 (fun h => absurd h h1), glue_glue _ _ (L_ne _), glue_glue _ _ (L_ne _)]
          refine ⟨by simp, ?_, ?_⟩
          · simp only [List.mem_append, not_or]
            exact ⟨⟨ha, hhash⟩, by simpa using Ne.symm v1⟩
          · have : Clean (c :: r) := clean_append (a := '\\' :: bl) hhash hc
            exact clean_tail v1 this
        · rw [if_neg h3]
          have hs : isSpace c = true := by simpa using h3
          have := ih acc (bl ++ [c]) ha (by
            intro d hd
            rcases List.mem_append.1 hd with h | h
            · exact hb d h
            · simp at h; rw [h]; exact ⟨hs, h2⟩) (by simpa using hc)
          simpa using this

theorem comment_spec (r : Text) : ∀ acc : Text, ∃ h t, splitBy (· == '\n') r = h :: t ∧ (comment acc r).1 = acc ++ h ∧
    ((comment acc r).2.1 = false → t = []) ∧
    ((comment acc r).2.1 = true → splitBy (· == '\n') (comment acc r).2.2 = t) := by
  induction r with
  | nil => intro acc; exact ⟨[], [], rfl, by simp [comment], fun _ => rfl, fun h => by simp [comment] at h⟩
  | cons c r ih =>
    intro acc
    unfold comment
    by_cases hc : c = '\n'
    · subst hc
      rw [if_pos rfl]
      exact ⟨[], splitBy (· == '\n') r, split_sep (by rfl) r, by simp, fun h => by simp at h, fun _ => rfl⟩
    · rw [if_neg hc]
      obtain ⟨h, t, e1, e2, e3, e4⟩ := ih (acc ++ [c])
      refine ⟨c :: h, t, ?_, by rw [e2]; simp, e3, e4⟩
      rw [split_cons (by simpa using hc), e1]; rfl

/-- What is left after the loop. -/
def restLines : Option Text → List Text
  | none => []
  | some r => logicalLines r

theorem takeWhile_hash {a : Text} (h : '#' ∉ a) (b : Text) : (a ++ '#' :: b).takeWhile (· != '#') = a := by
  induction a with
  | nil => simp [List.takeWhile]
  | cons c a ih =>
    simp only [List.mem_cons, not_or] at h
    rw [List.cons_append, List.takeWhile_cons, if_pos (by simpa using Ne.symm h.1), ih h.2]

theorem L_hash (r h : Text) (t : List Text) (e : splitBy (· == '\n') r = h :: t) :
    logicalLines ('#' :: r) = [] :: (joined t).flatMap (splitBy (· == ';')) := by
  unfold logicalLines
  rw [split_cons (by decide), e, glue]
  cases t with
  | nil => simp [joined, code, splitBy]
  | cons m t =>
    rw [joined_more]
    have : continued (['#'] ++ h) = none := by simp [continued]
    rw [this]
    simp [code, splitBy]

theorem logLoop_spec : ∀ (n : Nat) (s acc : Text), s.length ≤ n → '#' ∉ acc → Clean s →
    glue acc (logicalLines s) = code (logLoop acc s).1 :: restLines (logLoop acc s).2 ∧
    (∀ r ∈ (logLoop acc s).2, Clean r ∧ r.length < s.length) := by
  intro n
  induction n with
  | zero =>
    intro s acc hs ha _
    have : s = [] := List.length_eq_zero_iff.1 (by omega)
    subst this
    unfold logLoop
    rw [L_nil]
    refine ⟨by simp [glue, restLines, code, takeWhile_nohash ha], fun r hr => by simp at hr⟩
  | succ n ih =>
    intro s acc hs ha hcl
    unfold logLoop
    cases s with
    | nil =>
      simp only
      rw [L_nil]
      refine ⟨by simp [glue, restLines, code, takeWhile_nohash ha], fun r hr => by simp at hr⟩
    | cons c r =>
      simp only
      have hlen : r.length ≤ n := by simp only [List.length_cons] at hs; omega
      by_cases h1 : c = '#'
      · subst h1
        rw [if_pos rfl]
        obtain ⟨h, t, e1, e2, e3, e4⟩ := comment_spec r (acc ++ ['#'])
        rw [L_hash r h t e1]
        by_cases hn : (comment (acc ++ ['#']) r).2.1 = true
        · rw [if_pos hn]
          simp only [restLines]
          rw [e2, List.append_assoc, List.singleton_append, code, takeWhile_hash ha]
          refine ⟨?_, ?_⟩
          · unfold logicalLines; rw [e4 hn]; simp [glue]
          · intro r' hr'
            simp only [Option.mem_def, Option.some.injEq] at hr'
            subst hr'
            refine ⟨?_, ?_⟩
            · unfold Clean at hcl ⊢
              rw [e4 hn]
              rw [split_cons (by decide), e1, glue] at hcl
              exact fun l hl => hcl l (by simp [hl])
            · have : ∀ (r acc : Text), (comment acc r).2.2.length ≤ r.length := by
                intro r
                induction r with
                | nil => intro acc; simp [comment]
                | cons d r ihr =>
                  intro acc
                  unfold comment
                  split
                  · simp
                  · have := ihr (acc ++ [d]); simp only [List.length_cons]; omega
              have := this r (acc ++ ['#'])
              simp only [List.length_cons]; omega
        · rw [if_neg hn]
          have hn' : (comment (acc ++ ['#']) r).2.1 = false := by simpa using hn
          have ht := e3 hn'
          subst ht
          refine ⟨?_, fun r' hr' => by simp at hr'⟩
          simp only [restLines, joined, List.flatMap_nil]
          rw [e2, commentEof]
          split
          · rw [List.append_assoc, List.singleton_append, code, takeWhile_hash ha]; simp [glue]
          · rw [List.append_assoc, List.append_assoc, List.singleton_append, code, takeWhile_hash ha]; simp [glue]
      · rw [if_neg h1]
        have hcl' : Clean r := clean_tail h1 hcl
        by_cases h2 : c = ';'
        · subst h2
          rw [if_pos rfl, L_semi]
          refine ⟨by simp [glue, restLines, code, takeWhile_nohash ha], fun r' hr' => ?_⟩
          simp at hr'; subst hr'; exact ⟨hcl', by simp⟩
        · rw [if_neg h2]
          by_cases h3 : c = '\n'
          · subst h3
            rw [if_pos rfl, L_nl]
            refine ⟨by simp [glue, restLines, code, takeWhile_nohash ha], fun r' hr' => ?_⟩
            simp at hr'; subst hr'; exact ⟨hcl', by simp⟩
          · rw [if_neg h3]
            by_cases h4 : c = '\\'
            · subst h4
              rw [if_pos rfl]
              obtain ⟨c1, c2, c3⟩ := cont_spec r acc [] ha (by intro c hc; cases hc) hcl
              have hl := cont_length r (acc ++ ['\\']) acc.length
              obtain ⟨i1, i2⟩ := ih _ (cont (acc ++ ['\\']) acc.length r).1 (Nat.le_trans hl hlen) c2 c3
              refine ⟨?_, ?_⟩
              · rw [← i1]; exact c1
              · intro r' hr'
                have := i2 r' hr'
                exact ⟨this.1, by have := this.2; simp only [List.length_cons]; omega⟩
            · rw [if_neg h4]
              obtain ⟨i1, i2⟩ := ih r (acc ++ [c]) hlen (by
                rw [List.mem_append, not_or]; exact ⟨ha, by simpa using Ne.symm h1⟩) hcl'
              rw [L_cons r h1 h2 h3 (fun h => absurd h h4), glue_glue _ _ (L_ne _)]
              refine ⟨i1, fun r' hr' => ?_⟩
              have := i2 r' hr'
              exact ⟨this.1, by have := this.2; simp only [List.length_cons]; omega⟩

theorem logicalLine_spec {s : Text} (h : Clean s) :
    match logicalLine s with
    | none => codeLines s = []
    | some (l, r) => Clean r ∧ r.length < s.length ∧
        codeLines s = (if (code l).all isSpace then [] else [code l]) ++ codeLines r := by
  obtain ⟨h1, h2⟩ := logLoop_spec s.length s [] (Nat.le_refl _) (by simp) h
  rw [glue_nil (L_ne _)] at h1
  unfold logicalLine codeLines
  have hclean : Clean [] := by intro l hl; simp [splitBy] at hl; subst hl; intro a b e; simp at e
  cases hl : logLoop [] s with
  | mk l ro =>
    rw [hl] at h1 h2
    cases ro with
    | some r =>
      simp only
      refine ⟨(h2 r rfl).1, (h2 r rfl).2, ?_⟩
      rw [h1, restLines, List.filter_cons]
      by_cases hb : (code l).all isSpace = true <;> simp [hb]
    | none =>
      simp only
      by_cases hn : l = []
      · rw [if_pos hn]
        simp only
        rw [h1, hn]; rfl
      · rw [if_neg hn]
        simp only
        have hpos : 0 < s.length := by
          cases s with
          | nil => unfold logLoop at hl; simp at hl; exact absurd hl hn
          | cons c s => simp
        refine ⟨hclean, by simpa using hpos, ?_⟩
        rw [h1, L_nil, restLines, List.filter_cons]
        by_cases hb : (code l).all isSpace = true <;> simp [hb]

/-! ### the stack -/

theorem run_mono {keys : Text → Bool} {fs : Text → Option Text} : ∀ (n m : Nat) (st : List Text) (x), n ≤ m →
    run keys fs n st = some x → run keys fs m st = some x := by
  intro n
  induction n with
  | zero => intro m st x _ h; simp [run] at h
  | succ n ih =>
    intro m st x hm h
    obtain ⟨m, rfl⟩ : ∃ k, m = k + 1 := ⟨m - 1, by omega⟩
    rw [run] at h ⊢
    cases hs : step keys fs st with
    | mk e st' =>
      rw [hs] at h
      cases e with
      | eof => exact h
      | stopped => exact h
      | silent => exact ih m st' x (by omega) h
      | line k l =>
        simp only at h ⊢
        cases hr : run keys fs n st' with
        | none => rw [hr] at h; simp at h
        | some y => rw [hr] at h; rw [ih m st' y (by omega) hr]; exact h

theorem expand_nil (keys : Text → Bool) (fs : Text → Option Text) (n : Nat) : expand keys fs n [] = some ([], false) := by
  unfold expand; rfl

theorem expand_cons (keys : Text → Bool) (fs : Text → Option Text) (n : Nat) (l : Text) (ls : List Text) :
    expand keys fs n (l :: ls) =
    match includeName l with
    | none => (expand keys fs n ls).map fun p => ((classify keys l, l) :: p.1, p.2)
    | some f =>
      match fs f with
      | none => some ([], true)
      | some t =>
        match n with
        | 0 => none
        | n + 1 =>
          match expand keys fs n (codeLines (unix t)) with
          | none => none
          | some (ks, true) => some (ks, true)
          | some (ks, false) => (expand keys fs (n + 1) ls).map fun p => (ks ++ p.1, p.2) := by
  rw [expand]
  rfl

theorem stack_spec (keys : Text → Bool) (fs : Text → Option Text) (hfs : ∀ f t, fs f = some t → Clean (unix t)) :
    ∀ (n k : Nat) (s : Text), s.length ≤ k → Clean s → ∀ (st : List Text) (ks : List (Kind × Text)) (b : Bool),
      expand keys fs n (codeLines s) = some (ks, b) →
      ∀ ks' b', (b = false → ∃ m, run keys fs m st = some (ks', b')) →
        ∃ m', run keys fs m' (s :: st) = some (if b then (ks, true) else (ks ++ ks', b')) := by
  intro n
  induction n using Nat.strongRecOn with
  | _ n ihn =>
  intro k
  induction k using Nat.strongRecOn with
  | _ k ihk =>
  intro s hk hc st ks b he ks' b' hst
  have hl := logicalLine_spec hc
  cases hll : logicalLine s with
  | none =>
    rw [hll] at hl
    simp only at hl
    rw [hl, expand_nil] at he
    simp only [Option.some.injEq, Prod.mk.injEq] at he
    obtain ⟨rfl, rfl⟩ := he
    obtain ⟨m, hm⟩ := hst rfl
    refine ⟨m + 1, ?_⟩
    rw [run, step, hll]
    simpa using hm
  | some p =>
    obtain ⟨save, r⟩ := p
    rw [hll] at hl
    obtain ⟨hcr, hlen, hcl⟩ := hl
    rw [hcl] at he
    have hk0 : r.length < k := by omega
    by_cases hb : (code save).all isSpace = true
    · rw [if_pos hb, List.nil_append] at he
      obtain ⟨m', hm'⟩ := ihk r.length hk0 r (Nat.le_refl _) hcr st ks b he ks' b' hst
      refine ⟨m' + 1, ?_⟩
      rw [run, step, hll]
      simp only
      rw [if_pos (show (save.takeWhile (· != '#')).all isSpace = true from hb)]
      exact hm'
    · rw [if_neg hb, List.singleton_append, expand_cons] at he
      have hb' : ¬ ((save.takeWhile (· != '#')).all isSpace = true) := hb
      cases hi : includeName (code save) with
      | none =>
        rw [hi] at he
        simp only at he
        cases hx : expand keys fs n (codeLines r) with
        | none => rw [hx] at he; simp at he
        | some p =>
          obtain ⟨k2, b2⟩ := p
          rw [hx] at he
          simp only [Option.map_some, Option.some.injEq, Prod.mk.injEq] at he
          obtain ⟨e1, e2⟩ := he
          subst e2
          obtain ⟨m', hm'⟩ := ihk r.length hk0 r (Nat.le_refl _) hcr st k2 b2 hx ks' b' hst
          refine ⟨m' + 1, ?_⟩
          rw [run, step, hll]
          simp only
          rw [if_neg hb', show includeName (save.takeWhile (· != '#')) = none from hi]
          simp only
          rw [hm', ← e1]
          cases b2 <;> rfl
      | some f =>
        rw [hi] at he
        simp only at he
        cases hf : fs f with
        | none =>
          rw [hf] at he
          simp only [Option.some.injEq, Prod.mk.injEq] at he
          obtain ⟨e1, e2⟩ := he
          subst e1 e2
          refine ⟨1, ?_⟩
          rw [run, step, hll]
          simp only
          rw [if_neg hb', show includeName (save.takeWhile (· != '#')) = some f from hi]
          simp only [hf]
          rfl
        | some t =>
          rw [hf] at he
          cases n with
          | zero => simp at he
          | succ n =>
            simp only at he
            cases hx : expand keys fs n (codeLines (unix t)) with
            | none => rw [hx] at he; simp at he
            | some p =>
              obtain ⟨k2, b2⟩ := p
              rw [hx] at he
              cases b2 with
              | true =>
                simp only [Option.some.injEq, Prod.mk.injEq] at he
                obtain ⟨e1, e2⟩ := he
                subst e1 e2
                obtain ⟨m', hm'⟩ := ihn n (Nat.lt_succ_self n) _ (unix t) (Nat.le_refl _) (hfs f t hf) (r :: st) k2 true hx
                  [] false (fun h => by cases h)
                refine ⟨m' + 1, ?_⟩
                rw [run, step, hll]
                simp only
                rw [if_neg hb', show includeName (save.takeWhile (· != '#')) = some f from hi]
                simp only [hf]
                rw [decode_eq_unix, hm']
                rfl
              | false =>
                simp only at he
                cases hy : expand keys fs (n + 1) (codeLines r) with
                | none => rw [hy] at he; simp at he
                | some p =>
                  obtain ⟨k3, b3⟩ := p
                  rw [hy] at he
                  simp only [Option.map_some, Option.some.injEq, Prod.mk.injEq] at he
                  obtain ⟨e1, e2⟩ := he
                  subst e2
                  obtain ⟨m1, hm1⟩ := ihk r.length hk0 r (Nat.le_refl _) hcr st k3 b3 hy ks' b' hst
                  obtain ⟨m2, hm2⟩ := ihn n (Nat.lt_succ_self n) _ (unix t) (Nat.le_refl _) (hfs f t hf) (r :: st) k2 false hx
                    (if b3 then (k3, true) else (k3 ++ ks', b')).1 (if b3 then (k3, true) else (k3 ++ ks', b')).2
                    (fun _ => ⟨m1, by rw [hm1]⟩)
                  refine ⟨m2 + 1, ?_⟩
                  rw [run, step, hll]
                  simp only
                  rw [if_neg hb', show includeName (save.takeWhile (· != '#')) = some f from hi]
                  simp only [hf]
                  rw [decode_eq_unix, hm2, ← e1]
                  cases b3 <;> simp

/-! First words -/

theorem dropWhile_all (p : Char → Bool) (a b : Text) (h : ∀ c ∈ a, p c = true) : (a ++ b).dropWhile p = b.dropWhile p := by
  induction a with
  | nil => rfl
  | cons c a ih =>
    rw [List.cons_append, List.dropWhile_cons_of_pos (h c (by simp))]
    exact ih fun d hd => h d (by simp [hd])

theorem takeDrop_word (p : Char → Bool) (w rest : Text) (hw : ∀ c ∈ w, p c = true) (hr : ∀ c ∈ rest.head?, p c = false) :
    (w ++ rest).takeWhile p = w ∧ (w ++ rest).dropWhile p = rest := by
  induction w with
  | nil =>
    cases rest with
    | nil => exact ⟨rfl, rfl⟩
    | cons c r =>
      have := hr c (by simp)
      simp [this]
  | cons c w ih =>
    have hc := hw c (by simp)
    obtain ⟨h1, h2⟩ := ih fun d hd => hw d (by simp [hd])
    rw [List.cons_append, List.takeWhile_cons_of_pos hc, List.dropWhile_cons_of_pos hc, h1, h2]
    exact ⟨rfl, rfl⟩

theorem copyToken_first {l w rest : Text} (h : FirstWord l w rest) : copyToken l = (w, rest) := by
  obtain ⟨⟨sp, hsp, rfl⟩, hne, hw, hr⟩ := h
  unfold copyToken
  have e : (sp ++ w ++ rest).dropWhile isSpace = w ++ rest := by
    rw [List.append_assoc, dropWhile_all _ _ _ hsp]
    cases w with
    | nil => exact absurd rfl hne
    | cons c w => rw [List.cons_append, List.dropWhile_cons_of_neg (by simp [hw c (by simp)])]
  rw [e]
  obtain ⟨h1, h2⟩ := takeDrop_word (fun c => !isSpace c) w rest (fun c hc => by simp [hw c hc]) (fun c hc => by simp [hr c hc])
  rw [h1, h2]

theorem isPrefixOf_append (a b : Text) : a.isPrefixOf b = true ↔ ∃ t, b = a ++ t := by
  rw [List.isPrefixOf_iff_prefix]
  constructor
  · rintro ⟨t, rfl⟩; exact ⟨t, rfl⟩
  · rintro ⟨t, rfl⟩; exact ⟨t, rfl⟩

theorem includeWord_iff (w : Text) : IncludeWord w ↔
    ("include$".toList.isPrefixOf (w.map Char.toLower) = true ∨ "include_file".toList.isPrefixOf (w.map Char.toLower) = true) := by
  unfold IncludeWord
  rw [isPrefixOf_append, isPrefixOf_append]

theorem trim_spec (a f b : Text) (ha : ∀ c ∈ a, isSpace c = true) (hb : ∀ c ∈ b, isSpace c = true)
    (h1 : ∀ c ∈ f.head?, isSpace c = false) (h2 : ∀ c ∈ f.getLast?, isSpace c = false) : trim (a ++ f ++ b) = f := by
  unfold trim
  rw [List.reverse_append, dropWhile_all _ _ _ (by simpa using hb), List.reverse_append]
  by_cases hf : f = []
  · subst hf
    rw [List.reverse_nil, List.nil_append]
    have : a.reverse.dropWhile isSpace = [] := by
      have := dropWhile_all isSpace a.reverse [] (by simpa using ha)
      rw [List.append_nil] at this
      rw [this]; rfl
    rw [this]; rfl
  · have hr : f.reverse ≠ [] := by simpa using hf
    have e : (f.reverse ++ a.reverse).dropWhile isSpace = f.reverse ++ a.reverse := by
      cases hx : f.reverse with
      | nil => exact absurd hx hr
      | cons c r =>
        have hc : c ∈ f.getLast? := by
          have : f = r.reverse ++ [c] := by rw [← List.reverse_reverse f, hx]; simp
          rw [this]; simp
        rw [List.cons_append, List.dropWhile_cons_of_neg (by simp [h2 c hc])]
    rw [e, List.reverse_append, List.reverse_reverse, List.reverse_reverse, dropWhile_all _ _ _ ha]
    cases f with
    | nil => exact absurd rfl hf
    | cons c r => rw [List.dropWhile_cons_of_neg (by simp [h1 c (by simp)])]

end Verif.Lines
