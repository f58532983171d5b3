import Verif.Lemmas.CmdLine
/-
C95: the command line is read as documented.  C96: debugging option, incomplete and many settings.
Specification: `Verif/Spec/CmdLine.lean`.
-/
namespace Verif.CmdLine
open Verif.CText

/-- C95: any list of options (a plain file name does not start with a minus sign, at most 100
settings) means what it says, in any order. -/
theorem C95_options (opts : List Opt) (h : ∀ o ∈ opts, o.Ok) (hs : (opts.filterMap Opt.setting?).length ≤ 100) :
    ∃ a, parseArgs (words opts) = some a ∧ Means opts 0 a := by
  have e := parse_opts opts [] h start (by simpa [start] using hs)
  rw [List.append_nil] at e
  obtain ⟨h1, h2, h3, h4, h5⟩ := fold_means opts start
  refine ⟨opts.foldl apply start, by rw [parseArgs, e, parse], ?_, ?_, ?_, ?_, ?_⟩
  · rw [h1]; rfl
  · rw [h2]; simp [start]
  · rw [h3]; simp [start]
  · intro f; rw [h4]; cases f <;> simp [start, Args.has]
  · rw [h5]; rfl

example : (∀ o ∈ [Opt.control "a".toList, .flag .print, .set "x".toList "1".toList, .file "b.control".toList], o.Ok) ∧
    parseArgs ["-Ca".toList, "-print".toList, "-set".toList, "x".toList, "1".toList, "b.control".toList] =
      some { start with control := "b.control".toList, print := true, sets := [("x".toList, "1".toList)] } := by
  refine ⟨?_, by decide +kernel⟩
  intro o ho
  simp only [List.mem_cons, List.not_mem_nil, or_false] at ho
  rcases ho with rfl | rfl | rfl | rfl <;> simp [Opt.Ok]

/-- C95: the file may also be written as a separate argument after `-C`. -/
theorem C95_separate (f : Text) (h : f.head? ≠ some '-') (opts : List Opt) (hf : ∀ o ∈ opts, o.controlFile? = none)
    (ho : ∀ o ∈ opts, o.Ok) (hs : (opts.filterMap Opt.setting?).length ≤ 100) :
    ∃ a, parseArgs ("-C".toList :: f :: words opts) = some a ∧ a.control = f := by
  have := C95_options (.control [] :: .file f :: opts)
    (by intro o hm; simp only [List.mem_cons] at hm; exact hm.elim (fun e => e ▸ trivial) fun hm => hm.elim (fun e => e ▸ h) (ho o))
    (by simpa [List.filterMap_cons, Opt.setting?] using hs)
  obtain ⟨a, h1, h2⟩ := this
  refine ⟨a, by simpa [words, Opt.words] using h1, ?_⟩
  have e : opts.filterMap Opt.controlFile? = [] := by
    rw [List.filterMap_eq_nil_iff]; exact hf
  rw [h2.control]
  simp [List.filterMap_cons, Opt.controlFile?, e]

example : ("m.control".toList).head? ≠ some '-' ∧
    (parseArgs ["-C".toList, "m.control".toList, "-batch".toList]).map (·.control) = some "m.control".toList := by
  decide +kernel

/-- C95: the model name is the last component of the program name. -/
theorem C95_model_name (p n : Text) (h : '/' ∉ n) : modelName (p ++ '/' :: n) = n := by
  have e : (p ++ '/' :: n).reverse.takeWhile (· ≠ '/') = n.reverse := by
    simp only [List.reverse_append, List.reverse_cons, List.append_assoc, List.cons_append, List.nil_append]
    rw [List.takeWhile_append_of_pos (by intro c hc; simp at hc ⊢; rintro rfl; exact h hc)]
    simp
  have hm : '/' ∈ p ++ '/' :: n := by simp
  rw [modelName, afterLast, if_pos hm, e, List.reverse_reverse]

example : '/' ∉ "webmod".toList ∧ modelName "/usr/bin/webmod".toList = "webmod".toList ∧
    modelName "webmod".toList = "webmod".toList ∧ modelName "C:\\bin\\webmod".toList = "webmod".toList := by
  decide +kernel

/-- C96: `-debug n` sets the level, but its argument is also taken as the name of the control file. -/
theorem C96_debug_violated (before after : List Opt) (n : Text) (hn : n.head? ≠ some '-')
    (hb : ∀ o ∈ before, o.Ok) (ha : ∀ o ∈ after, o.Ok)
    (hs : ((before ++ after).filterMap Opt.setting?).length ≤ 100) :
    ∃ a, parseArgs (words before ++ ["-debug".toList, n] ++ words after) = some a ∧
      Means (before ++ Opt.file n :: after) (atoi n) a := by
  have e1 : parseArgs (words before ++ ["-debug".toList, n] ++ words after) =
      parse { before.foldl apply start with debug := atoi n } (words (.file n :: after)) := by
    unfold parseArgs
    rw [List.append_assoc, parse_opts before _ hb start
      (by simp only [List.filterMap_append, List.length_append] at hs; simp [start]; omega)]
    rw [List.cons_append, parse_cons, classify_debug]
    simp only [List.cons_append, List.nil_append, reduceCtorEq, if_false, List.headD_cons]
    simp only [words, List.flatMap_cons, Opt.words, List.cons_append, List.nil_append]
  obtain ⟨b1, b2, b3, b4, b5⟩ := fold_means before start
  have e2 := parse_opts (.file n :: after) [] (by
      intro o hm; simp only [List.mem_cons] at hm
      exact hm.elim (fun e => e ▸ hn) (ha o)) { before.foldl apply start with debug := atoi n } (by
      rw [b3]; simp [start, Opt.setting?, List.filterMap_cons] at hs ⊢; omega)
  rw [List.append_nil] at e2
  obtain ⟨h1, h2, h3, h4, h5⟩ := fold_means (.file n :: after) { before.foldl apply start with debug := atoi n }
  refine ⟨_, by rw [e1, e2, parse], ?_, ?_, ?_, ?_, h5⟩
  · rw [h1]; simp [Opt.controlFile?, b1, start, List.filterMap_cons, List.getLast?_cons]
  · rw [h2]
    simp only [b2, List.filterMap_append, Opt.envFile?, List.filterMap_cons, List.getLast?_append]
    cases (after.filterMap Opt.envFile?).getLast? <;> simp [start]
  · rw [h3]; simp only [b3]; simp [start, Opt.setting?, List.filterMap_cons]
  · intro f
    rw [h4]
    have := b4 f
    cases f <;> simp [start, Args.has] at this ⊢ <;> simp [this]

/-- C96: with `-debug` and no control file after it, the level becomes the control file. -/
example : (parseArgs ["m.control".toList, "-debug".toList, "3".toList]).map (·.control) = some "3".toList := by
  decide +kernel

/-- C96: if the control file is named after the debugging option, the line means what it says. -/
theorem C96_debug_partial (before after : List Opt) (n : Text) (hn : n.head? ≠ some '-')
    (hb : ∀ o ∈ before, o.Ok) (ha : ∀ o ∈ after, o.Ok) (hc : ∃ o ∈ after, o.controlFile? ≠ none)
    (hs : ((before ++ after).filterMap Opt.setting?).length ≤ 100) :
    ∃ a, parseArgs (words before ++ ["-debug".toList, n] ++ words after) = some a ∧
      Means (before ++ after) (atoi n) a := by
  obtain ⟨a, h, m⟩ := C96_debug_violated before after n hn hb ha hs
  refine ⟨a, h, ?_, ?_, ?_, ?_, m.level⟩
  · rw [m.control]
    obtain ⟨o, ho, hf⟩ := hc
    obtain ⟨f, hf⟩ := Option.ne_none_iff_exists'.1 hf
    have hm : f ∈ after.filterMap Opt.controlFile? := List.mem_filterMap.2 ⟨o, ho, hf⟩
    have hne : after.filterMap Opt.controlFile? ≠ [] := by intro e; rw [e] at hm; simp at hm
    obtain ⟨x, hx⟩ := Option.ne_none_iff_exists'.1 (mt List.getLast?_eq_none_iff.1 hne)
    simp [Opt.controlFile?, List.filterMap_cons, List.getLast?_cons, hx]
  · rw [m.env]; simp [Opt.envFile?, List.filterMap_cons]
  · rw [m.sets]; simp [Opt.setting?, List.filterMap_cons]
  · intro f; rw [m.flags]; simp

example : (∃ o ∈ [Opt.file "m.control".toList], o.controlFile? ≠ none) ∧
    parseArgs ["-debug".toList, "3".toList, "m.control".toList] =
      some { start with control := "m.control".toList, debug := 3 } := by
  exact ⟨⟨_, List.mem_singleton.2 rfl, by simp [Opt.controlFile?]⟩, by decide +kernel⟩

/-- C96: a setting without name or value reads past the arguments. -/
theorem C96_incomplete_violated (opts : List Opt) (h : ∀ o ∈ opts, o.Ok) (hs : (opts.filterMap Opt.setting?).length ≤ 100)
    (n : Text) :
    parseArgs (words opts ++ ["-set".toList]) = none ∧ parseArgs (words opts ++ ["-set".toList, n]) = none ∧
      parseArgs (words opts ++ ["-debug".toList]) = none := by
  have e := fun r => parse_opts opts r h start (by simpa [start] using hs)
  refine ⟨?_, ?_, ?_⟩ <;> rw [parseArgs, e] <;> simp only [parse_cons, classify_set, classify_debug, if_true]

example : parseArgs ["m.control".toList, "-set".toList, "x".toList] = none := by decide +kernel

/-- C96: the 101st setting is written past the end of the array. -/
theorem C96_many_violated (opts : List Opt) (h : ∀ o ∈ opts, o.Ok) (hs : (opts.filterMap Opt.setting?).length = 100)
    (n v : Text) : parseArgs (words (opts ++ [.set n v])) = none := by
  have e := parse_opts opts (words [.set n v]) h start (by simp [start, hs])
  have : words (opts ++ [.set n v]) = words opts ++ words [.set n v] := by simp [words]
  rw [parseArgs, this, e]
  have b3 := (fold_means opts start).2.2.1
  have : (opts.foldl apply start).sets.length = 100 := by rw [b3]; simp [start, hs]
  simp only [words, Opt.words, List.flatMap_cons, List.flatMap_nil, List.append_nil, parse_cons, classify_set, this]
  rfl

example : ((List.replicate 100 (Opt.set "x".toList "1".toList)).filterMap Opt.setting?).length = 100 := by
  simp [List.filterMap_replicate, Opt.setting?]

end Verif.CmdLine
