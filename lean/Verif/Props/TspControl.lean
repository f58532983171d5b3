import Verif.Lemmas.TspControl
/-
C141: the control file of TSPROC.
-/
namespace Verif.TspCtl

variable {σ : Type}

/-- In a well-formed file, the blocks that name the context of the run, or `all`, are processed in the order of the file, each once, and no
    other block is.  The first error of a processor ends the run. -/
theorem C141_blocks (f : TBlock → σ → Option σ) (arg : List Nat) (ha : arg = [] ∨ Word arg) (x : σ) (S : Settings) (hS : S.OK)
    (l : List Section) (hl : ∀ s ∈ l, s.OK) (hp : PestAfterList (some 1) l) (tail : List (List Nat)) (ht : ∀ n ∈ tail, Blank n) :
    let todo := (l.filter (Section.For (S.context arg))).map Section.block
    let run := runTsp f arg x (S.lines ++ (l.flatMap Section.lines ++ tail))
    (∀ y, todo.foldlM (fun s b => f b s) x = some y →
      run.2 = .done ∧ run.1.store = y ∧ run.1.log = todo ∧ run.1.date = S.spec) ∧
    (todo.foldlM (fun s b => f b s) x = none → run.2 = .block) := by
  intro todo run
  have hrun : run = _ := run_settings hS ha x (l.flatMap Section.lines ++ tail)
    ((l.flatMap Section.lines ++ tail).length + 1 + l.length) (by omega)
  have h := loop_sections (f := f) (ov := arg.take 25) l hl ⟨S.context arg, true, 1, some 1, S.spec, x, []⟩ rfl hp tail
    ((l.flatMap Section.lines ++ tail).length + 1)
  rw [← hrun] at h
  refine ⟨fun y hy => ?_, h.2⟩
  obtain ⟨st', h1, h2, h3, h4, h5, h6⟩ := h.1 y hy
  have : run = (st', .done) := by
    rw [h1, loop_succ, nextBlock_blank ht]
  rw [this]
  exact ⟨rfl, h5, by simpa using h6, h4⟩

/-- Whatever the file is, every block that was processed names the context of the run, or `all`, and what the run leaves is the work of these
    blocks in their order. -/
theorem C141_only (f : TBlock → σ → Option σ) (arg : List Nat) (x : σ) (ls : List (List Nat)) :
    (∀ b ∈ (runTsp f arg x ls).1.log, (runTsp f arg x ls).1.ctx ∈ b.contexts ∨ codes "all" ∈ b.contexts) ∧
    (runTsp f arg x ls).1.log.foldlM (fun s b => f b s) x = some (runTsp f arg x ls).1.store :=
  ⟨(inv_run x arg ls).wanted, (inv_run x arg ls).store⟩

/-- Nothing is done when the first line that is not blank or a comment is not START SETTINGS. -/
theorem C141_settings_first (f : TBlock → σ → Option σ) (arg : List Nat) (x : σ) (p : Piece) (ls : List (List Nat))
    (hb : ∀ n ∈ p.before, Blank n) (he : Entry p.line p.key p.value)
    (hk : ¬ (p.key.map upper = codes "START" ∧ p.value.map upper = codes "SETTINGS")) :
    (runTsp f arg x (p.before ++ p.line :: ls)).2 = .header ∧ (runTsp f arg x (p.before ++ p.line :: ls)).1.store = x ∧
      (runTsp f arg x (p.before ++ p.line :: ls)).1.log = [] := by
  have hb' : nextBlock false 0 (p.before ++ p.line :: ls) = .bad := by
    obtain ⟨_, hn, t, hsp, htl⟩ := entry_cut he
    rw [nextBlock_skip hb, nextBlock, hn]
    simp only [Bool.false_eq_true, if_false, hsp]
    rw [tail_take (entry_word he).2 htl]
    by_cases h1 : key p.key = codes "START"
    · rw [if_neg (by simp [h1])]
      split
      · rfl
      · rename_i no hno
        split
        · rename_i h2
          exfalso
          apply hk
          refine ⟨(key_iff codes_len.2.2.2.1).1 h1, ?_⟩
          rw [h2] at hno
          have : ∀ q ∈ titles, q.2 = 1 → q.1 = codes "SETTINGS" := by decide +kernel
          have hm : (key p.value, 1) ∈ titles := by
            unfold titleNo at hno
            rw [List.lookup_eq_some_iff] at hno
            obtain ⟨l₁, l₂, h3, _⟩ := hno
            rw [h3]
            simp
          exact (key_iff codes_len.2.2.2.2).1 (this _ hm rfl)
        · rfl
    · rw [if_pos h1]
  have : runTsp f arg x (p.before ++ p.line :: ls) = (⟨[], false, 0, none, 0, x, []⟩, .header) := by
    unfold runTsp
    rw [loop_succ]
    simp only
    rw [hb']
  rw [this]
  exact ⟨rfl, rfl, rfl⟩

/-- A line between blocks that is not START with the title of a block other than SETTINGS ends the run: the blocks before it have been processed,
    nothing after it is. -/
theorem C141_bad_header (f : TBlock → σ → Option σ) (arg : List Nat) (ha : arg = [] ∨ Word arg) (x : σ) (S : Settings) (hS : S.OK)
    (l : List Section) (hl : ∀ s ∈ l, s.OK) (hp : PestAfterList (some 1) l) (p : Piece) (hb : ∀ n ∈ p.before, Blank n)
    (he : Entry p.line p.key p.value)
    (hk : ¬ (p.key.map upper = codes "START" ∧ ∃ no, no ≠ 1 ∧ (p.value.map upper, no) ∈ titles)) (rest : List (List Nat)) (y : σ)
    (hy : ((l.filter (Section.For (S.context arg))).map Section.block).foldlM (fun s b => f b s) x = some y) :
    let run := runTsp f arg x (S.lines ++ (l.flatMap Section.lines ++ (p.before ++ p.line :: rest)))
    run.2 = .header ∧ run.1.store = y ∧ run.1.log = (l.filter (Section.For (S.context arg))).map Section.block := by
  intro run
  have hbad : ∀ m, nextBlock true m (p.before ++ p.line :: rest) = .bad := by
    intro m
    obtain ⟨_, hn, t, hsp, htl⟩ := entry_cut he
    rw [nextBlock_skip hb, nextBlock, hn]
    simp only [Bool.false_eq_true, if_false, hsp]
    rw [tail_take (entry_word he).2 htl]
    by_cases h1 : key p.key = codes "START"
    · rw [if_neg (by simp [h1])]
      split
      · rfl
      · rename_i no hno
        split
        · rfl
        · rename_i h2
          exfalso
          apply hk
          refine ⟨(key_iff codes_len.2.2.2.1).1 h1, no, h2, ?_⟩
          have hm : (key p.value, no) ∈ titles := by
            unfold titleNo at hno
            rw [List.lookup_eq_some_iff] at hno
            obtain ⟨l₁, l₂, h3, _⟩ := hno
            rw [h3]
            simp
          have := (key_iff (titles_lookup _ hm).2).1 rfl
          rwa [this]
    · rw [if_pos h1]
  have hrun : run = _ := run_settings hS ha x (l.flatMap Section.lines ++ (p.before ++ p.line :: rest))
    ((l.flatMap Section.lines ++ (p.before ++ p.line :: rest)).length + 1 + l.length) (by omega)
  have h := loop_sections (f := f) (ov := arg.take 25) l hl ⟨S.context arg, true, 1, some 1, S.spec, x, []⟩ rfl hp (p.before ++ p.line :: rest)
    ((l.flatMap Section.lines ++ (p.before ++ p.line :: rest)).length + 1)
  rw [← hrun] at h
  obtain ⟨st', h1, h2, h3, h4, h5, h6⟩ := h.1 y hy
  have : run = (st', .header) := by
    rw [h1, loop_succ, h3, hbad]
  rw [this]
  exact ⟨rfl, h5, by simpa using h6⟩

/-- A context given on the command line is not put in lower case, the contexts of the blocks are: with a capital in it, no block is processed except
    those for `all`, whatever the file is. -/
theorem C141_override_violated (f : TBlock → σ → Option σ) (arg : List Nat) (x : σ) (ls : List (List Nat)) (ha : Word arg)
    (hc : ∃ c ∈ arg.take 25, 65 ≤ c ∧ c ≤ 90) :
    ∀ b ∈ (runTsp f arg x ls).1.log, codes "all" ∈ b.contexts := by
  intro b hb
  have hi := inv_run (f := f) x arg ls
  rw [arg_trim (Or.inr ha)] at hi
  rcases hi.wanted b hb with h | h
  · exfalso
    rw [hi.override (hi.settings (List.ne_nil_of_mem hb)) (take25_ne ha)] at h
    obtain ⟨c, hc1, hc2⟩ := hc
    exact hi.lower b hb _ h c hc1 hc2
  · exact h

/-- A block for another context whose END is missing takes the next block with it, whatever context that block is for, and the run goes on
    without an error. -/
theorem C141_swallow_violated (f : TBlock → σ → Option σ) (arg : List Nat) (ha : arg = [] ∨ Word arg) (x : σ) (S : Settings) (hS : S.OK)
    (s t : Section) (hs : s.OK) (ht : t.OK) (hn : ¬ s.For (S.context arg)) (rest : List (List Nat)) :
    runTsp f arg x (S.lines ++ (text (s.start :: s.ctxs ++ s.body) ++ (t.lines ++ rest))) =
      runTsp f arg x (S.lines ++ (s.lines ++ rest)) := by
  have key1 : findEnd (t.lines ++ rest) = some rest := by
    obtain ⟨⟨hst, _, _, _, _, hcs⟩, _, hb, hf⟩ := ht
    have e1 : codes "START" ≠ codes "END" := by decide
    rw [lines_eq, findEnd_pass hst.1 (is_entry hst) (by rw [hst.2.2]; exact e1),
      findEnd_run (fun q hq => ⟨(hcs q hq).1.1, is_entry (hcs q hq).1, by rw [(hcs q hq).1.2.2]; exact codes_ne.1⟩),
      findEnd_run (fun q hq => ⟨(hb q hq).1, (hb q hq).2.1, (hb q hq).2.2.2⟩), findEnd_end hf]
  obtain ⟨hh, hbn, hb, hf⟩ := hs
  cases hbd : s.body with
  | nil => exact absurd hbd hbn
  | cons p ps =>
    rw [hbd] at hb
    have hp1 := hb p (by simp)
    have hps : ∀ u : List (List Nat), findEnd (text ps ++ u) = findEnd u := fun u =>
      findEnd_run (fun q hq => ⟨(hb q (by simp [hq])).1, (hb q (by simp [hq])).2.1, (hb q (by simp [hq])).2.2.2⟩)
    have e1 : text (s.start :: s.ctxs ++ (p :: ps)) ++ (t.lines ++ rest) =
        s.start.before ++ s.start.line :: (text s.ctxs ++ (p.before ++ p.line :: (text ps ++ (t.lines ++ rest)))) := by
      rw [text_append, text_cons, text_cons]
      simp
    have e2 : s.lines ++ rest =
        s.start.before ++ s.start.line :: (text s.ctxs ++ (p.before ++ p.line :: (text ps ++ (text [s.fin] ++ rest)))) := by
      rw [lines_eq, hbd, text_cons]
      simp
    rw [e1, e2, run_skip hS ha hh hn hp1.1 hp1.2.1 hp1.2.2.1 (by rw [hps]; exact key1),
      run_skip hS ha hh hn hp1.1 hp1.2.1 hp1.2.2.1 (by rw [hps]; exact findEnd_end hf)]

/-- A block for another context that has nothing besides its contexts takes the next block with it, whatever context that block is for, and the
    run goes on without an error, as if a complete block `s'` with the same title stood there. -/
theorem C141_empty_violated (f : TBlock → σ → Option σ) (arg : List Nat) (ha : arg = [] ∨ Word arg) (x : σ) (S : Settings) (hS : S.OK)
    (s t s' : Section) (hh : s.Head) (he : s.body = []) (hf : s.fin.Is "END") (ht : t.OK) (hn : ¬ s.For (S.context arg)) (hs' : s'.OK)
    (hno : s'.no = s.no) (hn' : ¬ s'.For (S.context arg)) (rest : List (List Nat)) :
    runTsp f arg x (S.lines ++ (s.lines ++ (t.lines ++ rest))) = runTsp f arg x (S.lines ++ (s'.lines ++ rest)) := by
  have key1 : findEnd (t.lines ++ rest) = some rest := by
    obtain ⟨⟨hst, _, _, _, _, hcs⟩, _, hb, hf⟩ := ht
    have e1 : codes "START" ≠ codes "END" := by decide
    rw [lines_eq, findEnd_pass hst.1 (is_entry hst) (by rw [hst.2.2]; exact e1),
      findEnd_run (fun q hq => ⟨(hcs q hq).1.1, is_entry (hcs q hq).1, by rw [(hcs q hq).1.2.2]; exact codes_ne.1⟩),
      findEnd_run (fun q hq => ⟨(hb q hq).1, (hb q hq).2.1, (hb q hq).2.2.2⟩), findEnd_end hf]
  obtain ⟨hh', hbn, hb, hf'⟩ := hs'
  cases hbd : s'.body with
  | nil => exact absurd hbd hbn
  | cons p ps =>
    rw [hbd] at hb
    have hp1 := hb p (by simp)
    have e1 : s.lines ++ (t.lines ++ rest) =
        s.start.before ++ s.start.line :: (text s.ctxs ++ (s.fin.before ++ s.fin.line :: (t.lines ++ rest))) := by
      rw [lines_eq, he, text_cons]
      simp [text]
    have e2 : s'.lines ++ rest =
        s'.start.before ++ s'.start.line :: (text s'.ctxs ++ (p.before ++ p.line :: (text ps ++ (text [s'.fin] ++ rest)))) := by
      rw [lines_eq, hbd, text_cons]
      simp
    rw [e1, e2, run_skip hS ha hh hn hf.1 (is_entry hf) (by rw [hf.2.2]; exact codes_ne.1.symm) key1,
      run_skip hS ha hh' hn' hp1.1 hp1.2.1 hp1.2.2.1 (by
        rw [findEnd_run (fun q hq => ⟨(hb q (by simp [hq])).1, (hb q (by simp [hq])).2.1, (hb q (by simp [hq])).2.2.2⟩)]
        exact findEnd_end hf'), hno]

/-- A file for a test: SETTINGS with context `c`, and a block ERASE_ENTITY with context `d`. -/
def twoBlocks (c d : String) : List (List Nat) :=
  ["START SETTINGS", "  CONTEXT " ++ c, "  DATE_FORMAT mm/dd/yyyy", "END SETTINGS", "# all", "START ERASE_ENTITY", "  CONTEXT " ++ d,
   "  SERIES_NAME flow", "END ERASE_ENTITY"].map codes

/-- Contexts that differ after 25 characters are not told apart. -/
theorem C141_truncated_violated : ∃ c d : String, codes c ≠ codes d ∧ Word (codes c) ∧ Word (codes d) ∧
    (runTsp (fun _ n => some (n + 1)) [] 0 (twoBlocks c d)).1.store = 1 ∧ (runTsp (fun _ n => some (n + 1)) [] 0 (twoBlocks c d)).2 = .done := by
  refine ⟨"calibration_of_the_catchment_1999", "calibration_of_the_catchment_2005", ?_, ?_, ?_, ?_, ?_⟩
  · decide +kernel
  · unfold Word; decide +kernel
  · unfold Word; decide +kernel
  · decide +kernel
  · decide +kernel

/-! ### Cases that meet the hypotheses -/

/-- A line `  k v`. -/
def line (k v : String) : Piece := ⟨[], codes k, codes v, codes ("  " ++ k ++ " " ++ v)⟩

theorem line_is {k v : String} (K : String) (h : codes ("  " ++ k ++ " " ++ v) = codes "  " ++ codes k ++ codes " " ++ codes v)
    (hl : (codes ("  " ++ k ++ " " ++ v)).length ≤ 400) (h1 : Word (codes k)) (h2 : Word (codes v)) (h3 : (codes k).map upper = codes K) :
    (line k v).Is K := by
  refine ⟨by simp [line], ⟨codes "  ", codes " ", [], by simpa [line] using h, hl, ?_, by unfold Seps; decide, h1, by unfold Seps; decide,
    by decide, h2, Or.inl rfl⟩, h3⟩
  show (codes ("  " ++ k ++ " " ++ v)).head? ≠ some 35
  rw [h]
  have : (codes "  ") = [32, 32] := by decide
  rw [this]
  simp

/-- Settings for context `Calib`. -/
def demoSettings : Settings :=
  ⟨line "Start" "settings", line "CONTEXT" "Calib", line "DATE_FORMAT" "dd/mm/yyyy", line "END" "SETTINGS", false, 1⟩

/-- A block for contexts `pest` and `c`. -/
def demoSection (c : String) : Section :=
  ⟨line "START" "Erase_Entity", [line "CONTEXT" "pest", line "CONTEXT" c], [line "SERIES_NAME" "flow"], line "END" "it", 301⟩

theorem demoSettings_ok : demoSettings.OK := by
  refine ⟨line_is _ ?_ ?_ ?_ ?_ ?_, ?_, line_is _ ?_ ?_ ?_ ?_ ?_, ?_, line_is _ ?_ ?_ ?_ ?_ ?_, ?_, ?_, line_is _ ?_ ?_ ?_ ?_ ?_⟩ <;>
    (first | unfold Word | unfold Plain | unfold DateWord | skip) <;> decide +kernel

theorem demoSection_ok (c : String) (h : c = "calib" ∨ c = "forecast") : (demoSection c).OK := by
  have hc : (line "CONTEXT" c).Is "CONTEXT" ∧ Plain (line "CONTEXT" c).value := by
    rcases h with rfl | rfl <;> refine ⟨line_is _ ?_ ?_ ?_ ?_ ?_, ?_⟩ <;> (first | unfold Word | unfold Plain | skip) <;> decide +kernel
  have hp : (line "CONTEXT" "pest").Is "CONTEXT" ∧ Plain (line "CONTEXT" "pest").value := by
    refine ⟨line_is _ ?_ ?_ ?_ ?_ ?_, ?_⟩ <;> (first | unfold Word | unfold Plain | skip) <;> decide +kernel
  refine ⟨⟨?_, ?_, by show (301 : Nat) ≠ 1; decide, by simp [demoSection], by simp [demoSection], ?_⟩, by simp [demoSection], ?_, ?_⟩
  · refine line_is _ ?_ ?_ ?_ ?_ ?_ <;> (first | unfold Word | skip) <;> decide +kernel
  · show ((codes "Erase_Entity").map upper, 301) ∈ titles
    decide +kernel
  · intro p hp'
    simp only [demoSection, List.mem_cons, List.not_mem_nil, or_false] at hp'
    rcases hp' with rfl | rfl
    · exact hp
    · exact hc
  · intro p hp'
    simp only [demoSection, List.mem_cons, List.not_mem_nil, or_false] at hp'
    subst hp'
    have h0 : (line "SERIES_NAME" "flow").Is "SERIES_NAME" := by
      refine line_is _ ?_ ?_ ?_ ?_ ?_ <;> (first | unfold Word | skip) <;> decide +kernel
    refine ⟨h0.1, h0.2.1, ?_, ?_⟩ <;> rw [h0.2.2] <;> decide +kernel
  · refine line_is _ ?_ ?_ ?_ ?_ ?_ <;> (first | unfold Word | skip) <;> decide +kernel

/-- The hypotheses of `C141_blocks` hold of a file with two blocks, of which the first is processed. -/
example : (runTsp (fun _ n => some (n + 1)) [] 0
    (demoSettings.lines ++ ([demoSection "calib", demoSection "forecast"].flatMap Section.lines ++ [codes "# end"]))).1.store = 1 := by
  have h := C141_blocks (fun _ n => some (n + 1)) [] (Or.inl rfl) 0 demoSettings demoSettings_ok
    [demoSection "calib", demoSection "forecast"]
    (by
      intro s hs
      simp only [List.mem_cons, List.not_mem_nil, or_false] at hs
      rcases hs with rfl | rfl
      · exact demoSection_ok _ (Or.inl rfl)
      · exact demoSection_ok _ (Or.inr rfl))
    (by refine ⟨by decide, by decide, trivial⟩) [codes "# end"] (by
      intro n hn
      rw [List.mem_singleton] at hn
      subst hn
      right
      decide)
  exact (h.1 1 (by decide +kernel)).2.1

/-- With the context of the command line in lower case the block is processed, with a capital it is not. -/
example : (runTsp (fun _ n => some (n + 1)) (codes "calib") 0 (twoBlocks "x" "Calib")).1.store = 1 ∧
    (runTsp (fun _ n => some (n + 1)) (codes "Calib") 0 (twoBlocks "x" "Calib")).1.store = 0 := by decide +kernel

/-- The hypotheses of `C141_swallow_violated`: the second block is for the context of the run and is not processed. -/
example (rest : List (List Nat)) : runTsp (fun _ n => some (n + 1)) [] 0
      (demoSettings.lines ++ (text ((demoSection "forecast").start :: (demoSection "forecast").ctxs ++ (demoSection "forecast").body) ++
        ((demoSection "calib").lines ++ rest))) =
    runTsp (fun _ n => some (n + 1)) [] 0 (demoSettings.lines ++ ((demoSection "forecast").lines ++ rest)) :=
  C141_swallow_violated _ [] (Or.inl rfl) 0 demoSettings demoSettings_ok _ _ (demoSection_ok _ (Or.inr rfl)) (demoSection_ok _ (Or.inl rfl))
    (by decide +kernel) rest

/-- The hypotheses of `C141_bad_header` and `C141_settings_first`: a title that is not known. -/
example : ¬ ((codes "START").map upper = codes "START" ∧ ∃ no, no ≠ 1 ∧ ((codes "ERASE_ENTITIES").map upper, no) ∈ titles) := by
  rintro ⟨_, no, _, h⟩
  have : ∀ q ∈ titles, q.1 ≠ (codes "ERASE_ENTITIES").map upper := by decide +kernel
  exact this _ h rfl

/-- Whatever the file: nothing is processed in a run that has no context. -/
theorem C141_context_needed (f : TBlock → σ → Option σ) (arg : List Nat) (x : σ) (ls : List (List Nat))
    (h : (runTsp f arg x ls).1.log ≠ []) : (runTsp f arg x ls).1.ctx ≠ [] :=
  (inv_run x arg ls).named ((inv_run x arg ls).settings h)

/-- Without a context nothing is processed, not even a block for all contexts; with one it is. -/
example : (runTsp (fun _ n => some (n + 1)) [] 0
      [codes "START SETTINGS", codes "DATE_FORMAT dd/mm/yyyy", codes "END SETTINGS", codes "START ERASE_ENTITY", codes "CONTEXT all",
       codes "SERIES_NAME a", codes "END ERASE_ENTITY"]).1.log = [] ∧
    (runTsp (fun _ n => some (n + 1)) [] 0
      [codes "START SETTINGS", codes "CONTEXT c", codes "DATE_FORMAT dd/mm/yyyy", codes "END SETTINGS", codes "START ERASE_ENTITY",
       codes "CONTEXT all", codes "SERIES_NAME a", codes "END ERASE_ENTITY"]).1.log ≠ [] := by decide +kernel

/-- The titles that are known are those of the kinds of blocks, and two titles go to the same processor exactly if they are of the same
kind. -/
theorem C141_titles : (∀ t ∈ titles, ∃ k ∈ kinds, ∃ w ∈ k, codes w = t.1) ∧ (∀ k ∈ kinds, ∀ w ∈ k, titleNo (codes w) ≠ none) ∧
    ∀ k ∈ kinds, ∀ w ∈ k, ∀ k' ∈ kinds, ∀ w' ∈ k', titleNo (codes w) = titleNo (codes w') ↔ k = k' := by
  refine ⟨?_, ?_, ?_⟩ <;> decide +kernel

/-- Keywords and titles are read in either case. -/
theorem C141_case : (∀ i, i < 26 → upper (97 + i) = 65 + i ∧ upper (65 + i) = 65 + i) ∧ ∀ c, ¬ (97 ≤ c ∧ c ≤ 122) → upper c = c := by
  refine ⟨fun i hi => ?_, fun c hc => by unfold upper; rw [if_neg hc]⟩
  unfold upper
  rw [if_pos (by omega), if_neg (by omega)]
  omega

end Verif.TspCtl
