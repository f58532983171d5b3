import Verif.Lemmas.IPhreeqcReg
import Verif.Lemmas.IPhreeqcSc
/-
C21, C22, C25, C50, C51, C52: chemistry instances.  Everything holds for every engine.
-/
namespace Verif.IPq
open Verif.SelOut (Cell Table)

/-! ### A concrete engine for the witnesses -/

/-- A small engine: the state counts the runs.  The input "stop" writes output and stops with an error,
the database "bad" cannot be read, the database "odd" is read but its test fails; any other run writes
one row of two selected-output blocks, 1 and 2. -/
def demo : Engine Nat Nat where
  fresh := 0
  readDb := fun _ s =>
    if s = ['b', 'a', 'd'] then ⟨[.error ['n', 'o', '\n']], true, 1, 0⟩
    else if s = ['o', 'd', 'd'] then ⟨[], false, 0, 7⟩ else ⟨[], false, 0, 1⟩
  run := fun n _ s =>
    if s = ['s', 't', 'o', 'p'] then ⟨[.output ['o', '\n'], .error ['e', '\n']], true, 1, n⟩
    else if n = 7 then ⟨[.error ['t', '\n']], false, 1, 8⟩
    else ⟨[.blocks [1, 2], .output ['o', '\n'], .punch 1 ['x'] ['h'] (.long 1), .punchMsg 1 ['\n'], .endRow 1 [],
           .punch 2 ['y'] ['k'] (.dbl 2), .punchMsg 2 ['\n'], .endRow 2 [['u']]], false, 0, n + 1⟩
  keys := fun _ => [1, 2]
  keys_nodup := fun _ => by decide
  test := fun n => (n, ['t'])
  endTest := fun n => n

def noFiles : Text → Option Text := fun _ => none

/-- An instance of the small engine with a database. -/
def demoStart : List Call := [.loadDatabaseString ['d', 'b']]

/-! ### C21 -/

/-- C21: in every history with at most 2^31 creations (and no crash), each creation is answered with a
nonnegative identifier different from all others.
Missing: after 2^31 creations the property is false, see `C21_wrap_violated`. -/
theorem C21_unique_partial {F E} (e : Engine F E) (fs : Text → Option Text) (qs : List Req)
    (r : Reg F E) (as : List (Req × Int)) (h : runReqs e fs Reg.init qs = some (r, as))
    (hc : creations qs ≤ 2147483648) (A B C : List (Req × Int)) (a b : Int)
    (hs : as = A ++ (.create, a) :: B ++ (.create, b) :: C) : 0 ≤ a ∧ 0 ≤ b ∧ a ≠ b := by
  obtain ⟨h1, h2⟩ := create_answer e fs qs Reg.init _ h
  have ha := h2 A a (B ++ (.create, b) :: C) (by simpa using hs)
  have hb := h2 (A ++ (.create, a) :: B) b C (by simpa using hs)
  have hcount : creations qs = creations (A.map (·.1)) + 1 + creations (B.map (·.1)) + 1 + creations (C.map (·.1)) := by
    rw [← h1]
    simp only [hs, List.map_append, List.map_cons]
    unfold creations
    simp only [List.countP_append, List.countP_cons, decide_true, if_true]
    omega
  have hAB : creations ((A ++ (.create, a) :: B).map (·.1)) = creations (A.map (·.1)) + 1 + creations (B.map (·.1)) := by
    simp only [List.map_append, List.map_cons]
    unfold creations
    simp only [List.countP_append, List.countP_cons, decide_true, if_true]
    omega
  simp only [Reg.init, Nat.zero_add] at ha hb
  rw [hAB] at hb
  rw [toInt_small _ (by omega)] at ha hb
  omega

/-- C21: after every such history, the instance with any identifier is exactly what one gets by making,
on a new instance, only the calls that were addressed to this identifier since it was created; there is
none if it was never created or has been destroyed. -/
theorem C21_isolated_partial {F E} (e : Engine F E) (fs : Text → Option Text) (qs : List Req)
    (hq : ∀ q ∈ qs, q.ok) (r : Reg F E) (as : List (Req × Int)) (h : runReqs e fs Reg.init qs = some (r, as))
    (hc : creations qs ≤ 2147483648) (id : Int) (hid : IsInt id) :
    r.find id = (own id as).bind fun cs => runCalls e fs (create e) cs := by
  have := (regOk_run e fs qs Reg.init [] _ (regOk_init e fs) hq (by simpa [Reg.init] using hc) h).1
  simpa using this.inst id hid

/-- C21: after every such history, a call to an identifier that does not exist, and its destruction,
return the bad-instance code and change nothing at all. -/
theorem C21_bad_instance_partial {F E} (e : Engine F E) (fs : Text → Option Text) (qs : List Req)
    (hq : ∀ q ∈ qs, q.ok) (r : Reg F E) (as : List (Req × Int)) (h : runReqs e fs Reg.init qs = some (r, as))
    (hc : creations qs ≤ 2147483648) (id : Int) (hid : IsInt id) (hno : own id as = none) (c : Call) :
    r.step e fs (.call id c) = some (r, -6) ∧ r.step e fs (.destroy id) = some (r, -6) := by
  have hf := C21_isolated_partial e fs qs hq r as h hc id hid
  rw [hno] at hf
  simp only [Option.bind_none] at hf
  simp [Reg.step, hf]

/-- C21: a call to an existing identifier gets the answer a separate instance with the same history of
its own would give. -/
theorem C21_answer_partial {F E} (e : Engine F E) (fs : Text → Option Text) (qs : List Req)
    (hq : ∀ q ∈ qs, q.ok) (r : Reg F E) (as : List (Req × Int)) (h : runReqs e fs Reg.init qs = some (r, as))
    (hc : creations qs ≤ 2147483648) (id : Int) (hid : IsInt id) (cs : List Call) (hown : own id as = some cs) (c : Call)
    (r' : Reg F E) (a : Int) (hs : r.step e fs (.call id c) = some (r', a)) (hex : r.find id ≠ none) :
    ∃ i j, runCalls e fs (create e) cs = some i ∧ step e fs i c = some (j, a) := by
  have hf := C21_isolated_partial e fs qs hq r as h hc id hid
  rw [hown] at hf
  simp only [Option.bind_some] at hf
  simp only [Reg.step] at hs
  cases hi : r.find id with
  | none => exact absurd hi hex
  | some i =>
    rw [hi] at hs hf
    simp only [Option.map_eq_some_iff] at hs
    obtain ⟨p, hp, hpe⟩ := hs
    simp only [Prod.mk.injEq] at hpe
    exact ⟨i, p.1, hf.symm, by rw [hp, ← hpe.2]⟩

/-- The creation after `N` others, when `N` cut to a C `int` is 0. -/
theorem wrap_aux (N : Nat) (hN : 0 < N) (h0 : toInt N = 0) : ∃ (qs : List Req) (r : Reg Nat Nat) (A B : List (Req × Int)),
    runReqs demo noFiles Reg.init qs = some (r, ((.create, 0) :: A) ++ (.create, 0) :: B) := by
  obtain ⟨z, hz⟩ := runReqs_creates demo noFiles (N + 1) Reg.init
  obtain ⟨h1, h2⟩ := create_answer demo noFiles _ _ z hz
  have hlen : z.2.length = N + 1 := by
    have := congrArg List.length h1
    simpa using this
  have hall : ∀ x ∈ z.2, x.1 = .create := by
    intro x hx
    have : x.1 ∈ z.2.map (·.1) := List.mem_map.2 ⟨x, hx, rfl⟩
    rw [h1] at this
    exact (List.mem_replicate.1 this).2
  have hget : ∀ (n : Nat) (hn : n < z.2.length), z.2[n] = (.create, toInt n) := by
    intro n hn
    have hx : z.2[n] = (.create, z.2[n].2) := by
      have := hall z.2[n] (List.getElem_mem hn)
      exact Prod.ext this rfl
    have hsp : z.2 = z.2.take n ++ (.create, z.2[n].2) :: z.2.drop (n + 1) := by
      rw [← hx]; simp
    have := h2 _ _ _ hsp
    have hcount : creations ((z.2.take n).map (·.1)) = n := by
      rw [List.map_take, h1, List.take_replicate]
      unfold creations
      rw [List.countP_replicate]
      simp; omega
    rw [hcount] at this
    simp only [Reg.init, Nat.zero_add] at this
    rw [hx, this]
  refine ⟨List.replicate (N + 1) .create, z.1, (z.2.drop 1).take (N - 1), z.2.drop (N + 1), ?_⟩
  rw [hz]
  congr 1
  apply Prod.ext
  · rfl
  · simp only
    have e0 : z.2 = z.2[0] :: z.2.drop 1 := by
      have := List.drop_eq_getElem_cons (l := z.2) (i := 0) (by omega)
      simpa using this
    have e1 : z.2.drop 1 = (z.2.drop 1).take (N - 1) ++ (z.2.drop 1).drop (N - 1) := (List.take_append_drop _ _).symm
    have e2 : (z.2.drop 1).drop (N - 1) = z.2[N] :: z.2.drop (N + 1) := by
      rw [List.drop_drop, show 1 + (N - 1) = N by omega]
      exact List.drop_eq_getElem_cons (by omega)
    rw [e2, hget N (by omega), h0] at e1
    rw [hget 0 (by omega)] at e0
    rw [List.cons_append, ← e1]
    exact e0

/-- C21 fails for long histories: identifiers are the 64-bit counter cut to a C `int`, so the creation
after 2^32 others is answered 0 again. -/
theorem C21_wrap_violated : ∃ (qs : List Req) (r : Reg Nat Nat) (A B : List (Req × Int)),
    runReqs demo noFiles Reg.init qs = some (r, ((.create, 0) :: A) ++ (.create, 0) :: B) :=
  wrap_aux 4294967296 (by decide) (by decide)

/-- Two instances used alternately, one of them destroyed. -/
example : ∃ r as, runReqs demo noFiles Reg.init
    [.create, .create, .call 1 (.accumulateLine ['b']), .call 0 (.accumulateLine ['a']), .destroy 0,
     .call 0 (.accumulateLine ['c']), .create] = some (r, as) ∧
    as.map (·.2) = [0, 1, 0, 0, 0, -6, 2] ∧ (r.find 1).map getAccumulatedLines = some ['b', '\n'] ∧
    own 0 as = none ∧ own 1 as = some [.accumulateLine ['b']] :=
  ⟨_, _, rfl, by decide +kernel, rfl, rfl, rfl⟩

/-! ### C22 -/

/-- C22: after any history of calls on a new instance, the accumulated input is the text of the lines in
force. -/
theorem C22_lines {F E} (e : Engine F E) (fs : Text → Option Text) (h : List Call) (i : Inst F E)
    (hr : runCalls e fs (create e) h = some i) : getAccumulatedLines i = asText (inForce false h.reverse) := by
  have := runCalls_acc e fs h [] (create e) i ⟨rfl, rfl⟩ hr
  simpa [getAccumulatedLines] using this.1

/-- C22: with a database, running the accumulated input has exactly the effects and the result of
running its text as a string, except that the lines are kept. -/
theorem C22_run {F E} (e : Engine F E) (fs : Text → Option Text) (i : Inst F E) (hdb : i.db = true) :
    (step e fs i .runAccumulated).map (fun p => ({ p.1 with lines := [], clearAcc := false }, p.2)) =
      step e fs i (.runString (getAccumulatedLines i)) := by
  simp only [step, runAccumulated, runString, getAccumulatedLines, Option.map_map]
  have h := sc_runBody e (txt "RunString") [] (txt "RunAccumulated") [] i.lines i hdb
  have h' : runBody e (txt "RunString") [] (some i.lines) { i with lines := [], clearAcc := false } =
    (runBody e (txt "RunAccumulated") [] (some i.lines) i).map sc := h
  rw [h', Option.map_map]
  rfl

/-- Lines are kept by a run and replaced by the first line added after it. -/
example : ∃ i, runCalls demo noFiles (create demo)
    (demoStart ++ [.accumulateLine ['a'], .runAccumulated, .accumulateLine ['b'], .accumulateLine ['c']]) = some i ∧
    getAccumulatedLines i = ['b', '\n', 'c', '\n'] := ⟨_, rfl, rfl⟩

example : ∃ i, runCalls demo noFiles (create demo) (demoStart ++ [.accumulateLine ['a'], .runAccumulated]) = some i ∧
    i.db = true ∧ getAccumulatedLines i = ['a', '\n'] := ⟨_, rfl, rfl, rfl⟩

/-! ### C25 -/

/-- C25 for a block whose switch agrees with the switch of the block selected for reading (for instance
that block itself): after any history and any run with a database, the text captured for the block is
what the run wrote for it if the user switched it on, and empty if not.
Missing: other blocks, see the three refutations. -/
theorem C25_captured_partial {F E} (e : Engine F E) (fs : Text → Option Text) (h : List Call) (i : Inst F E)
    (hr : runCalls e fs (create e) h = some i) (c : Call) (p : Inst F E × Int)
    (hc : isRun c = true) (hdb : i.db = true) (s : Text) (hs : inputOf fs i c = some s) (hp : step e fs i c = some p)
    (n : Int) (hn : userSwitch n h.reverse = userSwitch (selected h.reverse) h.reverse) :
    (p.1.strs n).getD [] = if userSwitch n h.reverse then written n i.punchOn (e.run i.eng i.outStrOn s).evs else [] := by
  obtain ⟨s1, s2⟩ := runCalls_switch e fs h [] _ i (create_switch e) hr
  rw [List.append_nil] at s1 s2
  obtain ⟨r, nm, l, b, b', j, hj, rfl, _⟩ := step_run e fs i c p hc hp
  rw [hs] at hj
  obtain ⟨k, hk, rfl⟩ := runBody_ok e r nm s { i with lines := l, clearAcc := b } j hdb hj
  have h1 := strs_applyEvs _ _ _ n hk
  rw [hn, ← s1, ← s2]
  have h2 : ∀ x : Bool, ((updateErrors (if x then
        ({ k with eng := (e.run i.eng i.outStrOn s).next, errors := (e.run i.eng i.outStrOn s).errors } : Inst F E)
        else endRun e { k with eng := (e.run i.eng i.outStrOn s).next, errors := (e.run i.eng i.outStrOn s).errors })).strs n).getD []
      = (k.strs n).getD [] := by
    intro x
    cases x
    · simp only [updateErrors, Bool.false_eq_true, if_false]
      rw [(endRun_keep e _).1]
    · rfl
  exact (h2 _).trans h1

/-- C25 fails: the switch of block 2 is on, block 1 is selected for reading, its switch is off: the text
of block 2 is not captured. -/
theorem C25_lost_violated : ∃ i, runCalls demo noFiles (create demo) (demoStart ++
      [.setCurrentSelectedOutputUserNumber 2, .setSelectedOutputStringOn true,
       .setCurrentSelectedOutputUserNumber 1, .runString ['x'], .setCurrentSelectedOutputUserNumber 2]) = some i ∧
    switchedOn i 2 = true ∧ getSelectedOutputString i = [] ∧ i.tabs 2 ≠ none := ⟨_, rfl, rfl, rfl, by decide +kernel⟩

/-- C25 fails: switching block 2 on also captures the text of block 1, whose switch is off. -/
theorem C25_extra_violated : ∃ i, runCalls demo noFiles (create demo) (demoStart ++
      [.setCurrentSelectedOutputUserNumber 2, .setSelectedOutputStringOn true, .runString ['x'],
       .setCurrentSelectedOutputUserNumber 1]) = some i ∧
    switchedOn i 1 = false ∧ getSelectedOutputString i = ['x', '\n'] := ⟨_, rfl, rfl, rfl⟩

/-- C25: with the switch off, the text getter does not say so (it looks only at whether the switch was
ever set). -/
theorem C25_message_violated : ∃ i, runCalls demo noFiles (create demo) (demoStart ++ [.runString ['x']]) = some i ∧
    switchedOn i 1 = false ∧ getSelectedOutputString i ≠ txt "GetSelectedOutputString: SelectedOutputStringOn not set.\n" :=
  ⟨_, rfl, rfl, by decide +kernel⟩

example : ∃ i, runCalls demo noFiles (create demo) (demoStart ++
      [.setCurrentSelectedOutputUserNumber 2, .setSelectedOutputStringOn true]) = some i ∧
    userSwitch 2 [.setSelectedOutputStringOn true, .setCurrentSelectedOutputUserNumber 2, .loadDatabaseString ['d', 'b']] = true ∧
    i.cur = 2 ∧ i.db = true ∧
    written 2 i.punchOn (demo.run i.eng i.outStrOn ['x']).evs = ['y', '\n'] := ⟨_, rfl, rfl, rfl, rfl, rfl⟩

/-! ### C50 -/

/-- C50: after any run the stored error and warning lines are the lines of the error and warning texts. -/
theorem C50_messages_partial {F E} (e : Engine F E) (fs : Text → Option Text) (i : Inst F E) (c : Call) (p : Inst F E × Int)
    (hc : isRun c = true) (h : step e fs i c = some p) (hon : p.1.errorOn = true ∧ p.1.errStrOn = true) :
    IsLines (getErrorString p.1) p.1.errLines ∧ IsLines (getWarningString p.1) p.1.warnLines := by
  obtain ⟨r, nm, l, b, b', j, hj, rfl, _⟩ := step_run e fs i c p hc h
  obtain ⟨h1, h2⟩ := runBody_lines _ _ _ _ _ _ hj
  have he : getErrorString { j with clearAcc := b' } = j.err := by
    unfold getErrorString
    simp only at hon ⊢
    simp [hon.1, hon.2]
  rw [he]
  simp only [getWarningString, h1, h2]
  exact ⟨isLines_getlines _, isLines_getlines _⟩

/-- C50: after any run with a database that was not stopped by an error, the output, log and
selected-output lines are the lines of the corresponding texts.
Missing: runs stopped by an error, and the calls between runs; see the refutations. -/
theorem C50_results_partial {F E} (e : Engine F E) (fs : Text → Option Text) (i : Inst F E) (c : Call) (p : Inst F E × Int)
    (hc : isRun c = true) (hdb : i.db = true) (s : Text) (hs : inputOf fs i c = some s)
    (hst : (e.run i.eng i.outStrOn s).stopped = false) (h : step e fs i c = some p) :
    (p.1.outStrOn = true → IsLines (getOutputString p.1) p.1.outLines) ∧
    (p.1.logStrOn = true → IsLines (getLogString p.1) p.1.logLines) ∧
    (switchedOn p.1 p.1.cur = true → p.1.cur ∈ e.keys p.1.eng → IsLines (getSelectedOutputString p.1) (selOutLines p.1)) := by
  obtain ⟨r, nm, l, b, b', j, hj, rfl, _⟩ := step_run e fs i c p hc h
  rw [hs] at hj
  obtain ⟨k, hk, rfl⟩ := runBody_ok e r nm s { i with lines := l, clearAcc := b } j hdb hj
  rw [hst] at *
  have hk0 : k.outLines = [] ∧ k.logLines = [] ∧ k.selLines = none1 := lines_applyEvs _ _ _ hk
  obtain ⟨k1, k2, k3⟩ := hk0
  simp only [Bool.false_eq_true, if_false]
  generalize hm : ({ k with eng := (e.run i.eng i.outStrOn s).next, errors := (e.run i.eng i.outStrOn s).errors } : Inst F E) = m
  have m1 : m.outLines = [] := by rw [← hm]; exact k1
  have m2 : m.logLines = [] := by rw [← hm]; exact k2
  have m3 : m.selLines = none1 := by rw [← hm]; exact k3
  obtain ⟨e1, _, e3, e4, e5, e6, _, _, _, e10⟩ := endRun_keep e m
  have es := same_endRun e m
  refine ⟨?_, ?_, ?_⟩
  · intro ho
    have ho' : (endRun e m).outStrOn = true := ho
    show IsLines (getOutputString (endRun e m)) (endRun e m).outLines
    have hmo : m.outStrOn = true := by rw [← es.outStrOn]; exact ho'
    simp only [getOutputString, ho', e3, e4, m1, hmo, not_true, if_false, if_true, List.nil_append]
    exact isLines_getlines _
  · intro ho
    have ho' : (endRun e m).logStrOn = true := ho
    show IsLines (getLogString (endRun e m)) (endRun e m).logLines
    have hmo : m.logStrOn = true := by rw [← es.logStrOn]; exact ho'
    simp only [getLogString, ho', e5, e6, m2, hmo, not_true, if_false, if_true, List.nil_append]
    exact isLines_getlines _
  · intro ho hcur
    have ho' : switchedOn (endRun e m) (endRun e m).cur = true := ho
    have hcur' : (endRun e m).cur ∈ e.keys (endRun e m).eng := hcur
    show IsLines (getSelectedOutputString (endRun e m)) (selOutLines (endRun e m))
    have hsel := endRun_selLines e m (endRun e m).cur
    rw [es.cur, e10] at hcur'
    have hmo : switchedOn m m.cur = true := by
      have := ho'; unfold switchedOn at this ⊢; rw [es.strOn, es.cur] at this; exact this
    have hg : getSelectedOutputString (endRun e m) = (m.strs m.cur).getD [] := by
      unfold getSelectedOutputString
      rw [es.strOn, es.cur, e1]
      unfold switchedOn at hmo
      cases hx : m.strOn m.cur with
      | none => rw [hx] at hmo; simp at hmo
      | some y => rfl
    have hl : selOutLines (endRun e m) = getlines ((m.strs m.cur).getD []) := by
      unfold selOutLines
      rw [hsel, es.cur]
      simp [m3, none1, hcur', hmo]
    rw [hg, hl]
    exact isLines_getlines _

/-- C50 fails after a run stopped by an error: the output text is there, its lines are not. -/
theorem C50_stopped_violated : ∃ i, runCalls demo noFiles (create demo) (demoStart ++
      [.setOutputStringOn true, .runString ['s', 't', 'o', 'p']]) = some i ∧
    getOutputString i = ['o', '\n'] ∧ i.outLines = [] ∧ ¬ IsLines (getOutputString i) i.outLines := by
  refine ⟨_, rfl, rfl, rfl, ?_⟩
  intro h
  have key : ∀ t : Text, IsLines t [] → t = [] := by
    rintro t ⟨_, h | ⟨ls', l, h, _⟩⟩
    · exact h
    · simp at h
  have := key ['o', '\n'] h
  simp at this

/-- C50 fails between runs: adding a line empties the error text but not the error lines. -/
theorem C50_accumulate_violated : ∃ i, runCalls demo noFiles (create demo) (demoStart ++
      [.runString ['s', 't', 'o', 'p'], .accumulateLine ['a']]) = some i ∧
    getErrorString i = [] ∧ i.errLines = [['e']] := ⟨_, rfl, rfl, rfl⟩

/-- C50 fails after loading a database that cannot be read: the error text is new, the lines are from the
run before. -/
theorem C50_load_violated : ∃ i, runCalls demo noFiles (create demo) (demoStart ++
      [.runString ['s', 't', 'o', 'p'], .loadDatabaseString ['b', 'a', 'd']]) = some i ∧
    getErrorString i = ['n', 'o', '\n'] ∧ i.errLines = [['e']] := ⟨_, rfl, rfl, rfl⟩

example : ∃ i, runCalls demo noFiles (create demo) (demoStart ++
      [.setOutputStringOn true, .setSelectedOutputStringOn true, .runString ['x']]) = some i ∧
    i.outLines = [['o']] ∧ selOutLines i = [['x']] ∧ switchedOn i i.cur = true ∧ i.cur ∈ demo.keys i.eng :=
  ⟨_, rfl, rfl, rfl, rfl, by decide +kernel⟩

/-! ### C51 -/

/-- C51: the outcome of running a text or a file depends on the engine state, the settings and the input
only: two instances that differ in the results and messages of earlier runs end up identical. -/
theorem C51_no_leftovers {F E} (e : Engine F E) (fs : Text → Option Text) (i i' : Inst F E) (h : settings i = settings i') :
    (∀ s, step e fs i (.runString s) = step e fs i' (.runString s)) ∧
    (∀ n, step e fs i (.runFile n) = step e fs i' (.runFile n)) := by
  have key : ∀ r n inp, runBody e r n inp { i with lines := [], clearAcc := false } =
      runBody e r n inp { i' with lines := [], clearAcc := false } := by
    intro r n inp
    rw [← er_runBody e r n inp { i with lines := [], clearAcc := false },
      ← er_runBody e r n inp { i' with lines := [], clearAcc := false }]
    obtain ⟨x1, x2, x3, x4, x5, x6, x7, x8, x9, x10, x11, x12, x13, x14, x15, x16, x17, x18, x19, x20, x21, x22, x23, x24,
      x25, x26, x27⟩ := i
    obtain ⟨y1, y2, y3, y4, y5, y6, y7, y8, y9, y10, y11, y12, y13, y14, y15, y16, y17, y18, y19, y20, y21, y22, y23, y24,
      y25, y26, y27⟩ := i'
    simp only [settings, Prod.mk.injEq] at h
    obtain ⟨rfl, rfl, rfl, rfl, ⟨rfl, rfl, rfl, rfl⟩, rfl, rfl, rfl⟩ := h
    rfl
  refine ⟨fun s => ?_, fun n => ?_⟩
  · simp only [step, runString, key]
  · simp only [step, runFile, key]

/-- C51: after a run with a database, the table of every block is the one made, from an empty table, by
the values and row ends of this run; blocks not announced in this run have none. -/
theorem C51_tables {F E} (e : Engine F E) (fs : Text → Option Text) (i : Inst F E) (c : Call) (p : Inst F E × Int)
    (hc : isRun c = true) (hdb : i.db = true) (s : Text) (hs : inputOf fs i c = some s) (h : step e fs i c = some p)
    (n : Int) :
    p.1.tabs n = if announced n (e.run i.eng i.outStrOn s).evs then
      SelOut.run SelOut.init (tableOps n false (e.run i.eng i.outStrOn s).evs) else none := by
  obtain ⟨r, nm, l, b, b', j, hj, rfl, _⟩ := step_run e fs i c p hc h
  rw [hs] at hj
  obtain ⟨k, hk, rfl⟩ := runBody_ok e r nm s { i with lines := l, clearAcc := b } j hdb hj
  have h1 := tabs_applyEvs _ _ _ n hk
  have h2 : ∀ x : Bool, (updateErrors (if x then
        ({ k with eng := (e.run i.eng i.outStrOn s).next, errors := (e.run i.eng i.outStrOn s).errors } : Inst F E)
        else endRun e { k with eng := (e.run i.eng i.outStrOn s).next, errors := (e.run i.eng i.outStrOn s).errors })).tabs n
      = k.tabs n := by
    intro x
    cases x
    · simp only [updateErrors, Bool.false_eq_true, if_false]
      rw [(endRun_keep e _).2.1]
    · rfl
  exact (h2 _).trans h1

example : ∃ i, runCalls demo noFiles (create demo) (demoStart ++ [.runString ['x']]) = some i ∧
    i.db = true ∧ announced 2 (demo.run i.eng i.outStrOn ['x']).evs = true ∧
    (i.tabs 2).map (fun t => (SelOut.rowCount t, SelOut.colCount t, SelOut.get t 0 1 1)) = some (2, 2, some (0, some .empty)) :=
  ⟨_, rfl, rfl, rfl, by decide +kernel⟩

/-! ### C52 -/

/-- C52: without a database every run is refused: it returns 1, reports exactly one error, produces no
table, and does not touch the engine. -/
theorem C52_refused {F E} (e : Engine F E) (fs : Text → Option Text) (i : Inst F E) (c : Call) (p : Inst F E × Int)
    (hc : isRun c = true) (hdb : i.db = false) (h : step e fs i c = some p)
    (hon : i.errorOn = true ∧ i.errStrOn = true) :
    p.2 = 1 ∧ p.1.eng = i.eng ∧ p.1.tabs = none1 ∧ p.1.db = false ∧
    ∃ r, (r = "RunAccumulated" ∨ r = "RunString" ∨ r = "RunFile") ∧
      getErrorString p.1 = txt "ERROR: " ++ (txt r ++ txt ": No database is loaded") ++ ['\n'] := by
  obtain ⟨r, nm, l, b, b', j, hj, rfl, hr⟩ := step_run e fs i c p hc h
  unfold runBody at hj
  simp only [Option.map_eq_some_iff] at hj
  obtain ⟨k, hk, rfl⟩ := hj
  rw [if_neg (show ¬ (clearResults { i with lines := l, clearAcc := b }).db = true by
    show ¬ i.db = true
    rw [hdb]; simp)] at hk
  simp only [Option.some.injEq] at hk
  subst hk
  have hs := same_engineError (F := F) (E := E) { clearResults { i with lines := l, clearAcc := b } with errors := 1 }
    (r ++ txt ": No database is loaded")
  obtain ⟨k1, k2, k3, k4⟩ := engineError_keep (F := F) (E := E) { clearResults { i with lines := l, clearAcc := b } with errors := 1 }
    (r ++ txt ": No database is loaded")
  refine ⟨k3, k1, k2, hs.db.trans hdb, ?_⟩
  have hg : ∀ m : Inst F E, m.errorOn = true → m.errStrOn = true → getErrorString m = m.err := by
    intro m h1 h2; unfold getErrorString; simp [h1, h2]
  have hg' := hg _ (hs.errorOn.trans hon.1) (hs.errStrOn.trans hon.2)
  have hk : (engineError { clearResults { i with lines := l, clearAcc := b } with errors := 1 }
    (r ++ txt ": No database is loaded")).err = txt "ERROR: " ++ (r ++ txt ": No database is loaded") ++ ['\n'] := by
    rw [k4]
    exact if_pos ⟨hon.2, hon.1⟩
  rcases hr with rfl | rfl | rfl
  · exact ⟨"RunAccumulated", .inl rfl, hg'.trans hk⟩
  · exact ⟨"RunString", .inr (.inl rfl), hg'.trans hk⟩
  · exact ⟨"RunFile", .inr (.inr rfl), hg'.trans hk⟩

/-- C52: a database that cannot be opened or read with errors leaves the instance without a database.
Missing: a database that is read without errors but fails its test, see `C52_test_violated`. -/
theorem C52_failed_load_partial {F E} (e : Engine F E) (i j : Inst F E) (name : Text) (input : Option Text)
    (h : loadDatabase e i name input = some j)
    (hbad : input = none ∨ ∃ s, input = some s ∧ (e.readDb e.fresh s).errors ≠ 0) : j.errors ≠ 0 ∧ j.db = false := by
  unfold loadDatabase at h
  simp only [Option.bind_eq_some_iff] at h
  obtain ⟨k, h1, h2⟩ := h
  have hk : k.errors ≠ 0 ∧ k.db = false := by
    unfold loadDb at h1
    simp only [Option.map_eq_some_iff] at h1
    obtain ⟨m, h3, rfl⟩ := h1
    have hm : m.errors ≠ 0 := by
      rcases hbad with rfl | ⟨s, rfl, hs⟩
      · simp only [Option.some.injEq] at h3; subst h3
        unfold engineError
        simp [unload]
      · simp only [Option.map_eq_some_iff] at h3
        obtain ⟨m', _, rfl⟩ := h3
        exact hs
    exact ⟨hm, by simp [hm]⟩
  rw [if_neg hk.1] at h2
  simp only [Option.some.injEq] at h2
  subst h2; exact hk

/-- C52 fails when the database is read but its test fails: LoadDatabase returns an error, yet the next
run is accepted. -/
theorem C52_test_violated : ∃ i p, step demo noFiles (create demo) (.loadDatabaseString ['o', 'd', 'd']) = some (i, 1) ∧
    step demo noFiles i (.runString ['x']) = some (p, 0) := ⟨_, _, rfl, rfl⟩

example : ∃ i p, runCalls demo noFiles (create demo) [.loadDatabaseString ['b', 'a', 'd']] = some i ∧ i.db = false ∧
    step demo noFiles i (.runString ['x']) = some (p, 1) := ⟨_, _, rfl, rfl, rfl⟩

end Verif.IPq
