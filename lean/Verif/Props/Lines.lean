import Verif.Lemmas.Lines
/-
C30: logical input lines.
-/
namespace Verif.Lines
open CText (isSpace splitBy)

/-- C30, line ends: what is read character by character is the text with Unix line ends. -/
theorem C30_line_ends (s : Text) :
    decode s = unix s ∧ (getc s).map (fun p => p.1 :: unix p.2) = if s = [] then none else some (unix s) := by
  refine ⟨decode_eq_unix s, ?_⟩
  have := decode_getc s
  simpa only [decode_eq_unix] using this

example : decode "a\r\nb\rc\n".toList = "a\nb\rc\n".toList := by decide +kernel

/-- C30, one stream: the call that reads a logical line delivers (up to the comment) the first logical line
of the text and leaves a strictly shorter text with the remaining logical lines; at the end of the text
nothing but blank is left.  Partial: no backslash is followed by `#` or `;`. -/
theorem C30_logical_partial (s : Text) (h : Clean s) :
    match logicalLine s with
    | none => logicalLines s = [[]]
    | some (l, r) => Clean r ∧ r.length < s.length ∧
        (logicalLines s = code l :: logicalLines r ∨ (r = [] ∧ logicalLines s = [code l])) := by
  obtain ⟨h1, h2⟩ := logLoop_spec s.length s [] (Nat.le_refl _) (by simp) h
  rw [glue_nil (L_ne _)] at h1
  have h3 := logicalLine_spec h
  unfold logicalLine at h3 ⊢
  cases hl : logLoop [] s with
  | mk l ro =>
    rw [hl] at h1 h2 h3
    cases ro with
    | some r => exact ⟨(h2 r rfl).1, (h2 r rfl).2, Or.inl h1⟩
    | none =>
      simp only at h3 ⊢
      by_cases hn : l = []
      · rw [if_pos hn]; simp only; rw [h1, hn]; rfl
      · rw [if_neg hn] at h3 ⊢
        exact ⟨h3.1, h3.2.1, Or.inr ⟨rfl, h1⟩⟩

/-- C30: reading an input text to its end terminates and delivers exactly its non-blank logical lines in
order (comments removed, continuations joined, cut at semicolons), with the lines of included files in the
place of the include lines; a missing include file stops the reading there.  Partial: no backslash is
followed by `#` or `;`, and the include files are nested finitely deep. -/
theorem C30_read_partial (keys : Text → Bool) (fs : Text → Option Text) (s : Text)
    (hs : Clean (unix s)) (hfs : ∀ f t, fs f = some t → Clean (unix t))
    (depth : Nat) (x : List (Kind × Text) × Bool) (hx : expand keys fs depth (codeLines (unix s)) = some x) :
    ∃ n, ∀ m, n ≤ m → read keys fs m s = some x := by
  obtain ⟨ks, b⟩ := x
  obtain ⟨n, hn⟩ := stack_spec keys fs hfs depth _ (unix s) (Nat.le_refl _) hs [] ks b hx [] false (fun _ => ⟨1, rfl⟩)
  refine ⟨n, fun m hm => run_mono n m _ _ hm ?_⟩
  rw [decode_eq_unix, hn]
  cases b <;> simp

theorem expand_plain (keys : Text → Bool) (fs : Text → Option Text) (ls : List Text) (h : ∀ l ∈ ls, includeName l = none) :
    expand keys fs 0 ls = some (ls.map fun l => (classify keys l, l), false) := by
  induction ls with
  | nil => rw [expand_nil]; rfl
  | cons l ls ih =>
    rw [expand_cons, h l (by simp)]
    simp only
    rw [ih fun m hm => h m (by simp [hm])]; rfl

/-- C30, without include lines: the lines delivered are the non-blank logical lines. -/
theorem C30_plain_partial (keys : Text → Bool) (fs : Text → Option Text) (s : Text)
    (hs : Clean (unix s)) (hfs : ∀ f t, fs f = some t → Clean (unix t))
    (hi : ∀ l ∈ codeLines (unix s), includeName l = none) :
    ∃ n, ∀ m, n ≤ m → read keys fs m s = some ((codeLines (unix s)).map fun l => (classify keys l, l), false) :=
  C30_read_partial keys fs s hs hfs 0 _ (expand_plain keys fs _ hi)

/-- A text without backslashes is clean. -/
theorem clean_of_no_backslash {s : Text} (h : '\\' ∉ s) : Clean s := by
  intro l hl a b e _
  have : ∀ (s : Text) (l : Text), l ∈ splitBy (· == '\n') s → ∀ c ∈ l, c ∈ s := by
    intro s
    induction s with
    | nil => intro l hl c hc; simp [splitBy] at hl; subst hl; cases hc
    | cons d s ih =>
      intro l hl c hc
      by_cases hd : d = '\n'
      · subst hd
        rw [split_sep (by rfl)] at hl
        rcases List.mem_cons.1 hl with h1 | h1
        · subst h1; cases hc
        · exact List.mem_cons_of_mem _ (ih l h1 c hc)
      · rw [split_cons (by simpa using hd)] at hl
        have hne := split_ne (· == '\n') s
        cases hs : splitBy (· == '\n') s with
        | nil => exact absurd hs hne
        | cons m ms =>
          rw [hs, glue] at hl
          rcases List.mem_cons.1 hl with h1 | h1
          · subst h1
            rcases List.mem_append.1 hc with h2 | h2
            · simp at h2; simp [h2]
            · exact List.mem_cons_of_mem _ (ih m (by simp [hs]) c h2)
          · exact List.mem_cons_of_mem _ (ih l (by simp [hs, h1]) c hc)
  exact absurd (this s l hl '\\' (by rw [e]; simp)) h

/-- C30, kinds of lines: a line is a keyword line exactly if its first word, in lower case, is in the table of
keywords; otherwise it is an option line exactly if its first word is a minus sign followed by a letter. -/
theorem C30_kind (keys : Text → Bool) (l w rest : Text) (h : FirstWord l w rest) :
    (classify keys l = .keyword ↔ keys (w.map Char.toLower) = true) ∧
    (classify keys l = .option ↔ keys (w.map Char.toLower) = false ∧ ∃ c r, w = '-' :: c :: r ∧
      (('a' ≤ c ∧ c ≤ 'z') ∨ ('A' ≤ c ∧ c ≤ 'Z'))) := by
  unfold classify
  rw [copyToken_first h]
  cases hk : keys (w.map Char.toLower) with
  | true => simp
  | false =>
    simp only [Bool.false_eq_true, if_false, iff_false, true_and]
    have ha : ∀ c, isAlpha c = true ↔ (('a' ≤ c ∧ c ≤ 'z') ∨ ('A' ≤ c ∧ c ≤ 'Z')) := by
      intro c; simp [isAlpha]
    by_cases hw : ∃ c r, w = '-' :: c :: r
    · obtain ⟨c, r, rfl⟩ := hw
      simp only [List.cons.injEq, true_and]
      by_cases hc : isAlpha c = true
      · simp only [hc, if_true]
        exact ⟨by simp, fun _ => ⟨c, r, ⟨rfl, rfl⟩, (ha c).1 hc⟩, by simp⟩
      · simp only [hc, Bool.false_eq_true, if_false]
        refine ⟨by simp, by simp, ?_⟩
        rintro ⟨d, r', ⟨rfl, rfl⟩, h2⟩
        exact absurd ((ha _).2 h2) hc
    · split
      · next c r => exact absurd ⟨c, r, rfl⟩ hw
      · refine ⟨by simp, by simp, ?_⟩
        rintro ⟨c, r, h1, _⟩
        exact absurd ⟨c, r, h1⟩ hw

example : FirstWord "  -pH 7".toList "-pH".toList " 7".toList :=
  ⟨⟨"  ".toList, by decide, by decide⟩, by decide, by decide, by decide⟩

/-- C30, include lines: a line asks for a file exactly if its first word is an include word and something
follows; the file name is what follows without the white space around it. -/
theorem C30_include_line (l w a f b : Text) (h : FirstWord l w (a ++ f ++ b))
    (ha : ∀ c ∈ a, isSpace c = true) (hb : ∀ c ∈ b, isSpace c = true)
    (h1 : ∀ c ∈ f.head?, isSpace c = false) (h2 : ∀ c ∈ f.getLast?, isSpace c = false) :
    (IncludeWord w ∧ f ≠ [] → includeName l = some f) ∧ (¬ IncludeWord w ∨ f = [] → includeName l = none) := by
  unfold includeName
  rw [copyToken_first h]
  simp only [trim_spec a f b ha hb h1 h2]
  constructor
  · rintro ⟨h3, h4⟩
    rw [if_pos ((includeWord_iff w).1 h3), if_neg h4]
  · intro h3
    split_ifs with h4 h5
    · rfl
    · rcases h3 with h3 | h3
      · exact absurd ((includeWord_iff w).2 h4) h3
      · exact absurd h3 h5
    · rfl

example : FirstWord "INCLUDE$  my file.txt ".toList "INCLUDE$".toList ("  ".toList ++ "my file.txt".toList ++ " ".toList) :=
  ⟨⟨[], by decide, by decide⟩, by decide, by decide, by decide⟩

def demoKeys (w : Text) : Bool := w == "solution".toList || w == "end".toList

def demoText : Text := "SOLUTION 1; -pH 7 # neutral; really\r\n\n  Ca \\ \r\n 1.0\nInclude$ more.txt\nEND".toList

def demoFs (f : Text) : Option Text := if f = "more.txt".toList then some "Cl 2".toList else none

example : codeLines (unix demoText) =
    ["SOLUTION 1".toList, " -pH 7 ".toList, "  Ca  1.0".toList, "Include$ more.txt".toList, "END".toList] := by decide +kernel

example : read demoKeys demoFs 20 demoText = some
    ([(.keyword, "SOLUTION 1".toList), (.option, " -pH 7 ".toList), (.ok, "  Ca  1.0".toList), (.ok, "Cl 2".toList),
      (.keyword, "END".toList)], false) := by decide +kernel

example : read demoKeys (fun _ => none) 20 demoText = some
    ([(.keyword, "SOLUTION 1".toList), (.option, " -pH 7 ".toList), (.ok, "  Ca  1.0".toList)], true) := by decide +kernel

/-- C30, a semicolon after a backslash does not separate. -/
theorem C30_semicolon_violated :
    logicalLine "a\\;b".toList = some ("a\\;b".toList, []) ∧ codeLines "a\\;b".toList = ["a\\".toList, "b".toList] := by
  decide +kernel

/-- C30, a comment sign after a backslash does not protect the comment: the text behind a semicolon in the
comment is read as input. -/
theorem C30_comment_violated :
    (read demoKeys demoFs 20 "a \\# b; END".toList) = some ([(.ok, "a \\".toList), (.keyword, " END".toList)], false) ∧
    codeLines "a \\# b; END".toList = ["a \\".toList] := by decide +kernel

/-- C30, a file that includes itself is read forever. -/
theorem C30_include_violated (keys : Text → Bool) :
    ∀ n, read keys (fun _ => some "include$ a".toList) n "include$ a".toList = none := by
  have h : ∀ (n : Nat) (st : List Text), run keys (fun _ => some "include$ a".toList) n ("include$ a".toList :: st) = none := by
    intro n
    induction n with
    | zero => intro st; rfl
    | succ n ih =>
      intro st
      have e : step keys (fun _ => some "include$ a".toList) ("include$ a".toList :: st) =
          (.silent, "include$ a".toList :: [] :: st) := by
        have h1 : logicalLine "include$ a".toList = some ("include$ a".toList, []) := by decide +kernel
        have h2 : ("include$ a".toList.takeWhile (· != '#')) = "include$ a".toList := by decide +kernel
        have h3 : includeName "include$ a".toList = some "a".toList := by decide +kernel
        have h4 : "include$ a".toList.all isSpace = false := by decide +kernel
        have h5 : decode "include$ a".toList = "include$ a".toList := by decide +kernel
        unfold step
        simp only [h1, h2, h3, h4, h5, Bool.false_eq_true, if_false]
      rw [run, e]
      exact ih _
  intro n
  have h5 : decode "include$ a".toList = "include$ a".toList := by decide +kernel
  unfold read
  rw [h5]
  exact h n []

/-- C30, the copy of the line for the output repeats the last character of a comment that ends the file. -/
theorem C30_echo_violated : logicalLine "a #b".toList = some ("a #bb".toList, []) := by decide +kernel

end Verif.Lines
