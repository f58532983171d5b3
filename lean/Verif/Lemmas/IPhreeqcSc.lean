import Verif.Lemmas.IPhreeqc
/-
Runs do not look at the accumulated lines; the refused run.
-/
namespace Verif.IPq

/-- Forgetting the accumulated lines. -/
def sc {F E} (i : Inst F E) : Inst F E := { i with lines := [], clearAcc := false }

theorem sc_outputMsg {F E} (i : Inst F E) (s : Text) : outputMsg (sc i) s = sc (outputMsg i s) := by
  unfold outputMsg sc; simp only; split_ifs <;> rfl

theorem sc_logMsg {F E} (i : Inst F E) (s : Text) : logMsg (sc i) s = sc (logMsg i s) := by
  unfold logMsg sc; simp only; split_ifs <;> rfl

theorem sc_errorMsg {F E} (i : Inst F E) (s : Text) : errorMsg (sc i) s = sc (errorMsg i s) := by
  unfold errorMsg addError sc; simp only; split_ifs <;> rfl

theorem sc_warningMsg {F E} (i : Inst F E) (s : Text) : warningMsg (sc i) s = sc (warningMsg i s) := by
  unfold warningMsg; rw [sc_logMsg, sc_outputMsg]; rfl

theorem sc_punchText {F E} (i : Inst F E) (n : Int) (s : Text) : punchText (sc i) n s = sc (punchText i n s) := by
  unfold punchText selStringOn sc; simp only; split_ifs <;> rfl

theorem sc_addBlock {F E} (i : Inst F E) (k : Int) : addBlock (sc i) k = sc (addBlock i k) := by
  unfold addBlock sc
  simp only
  cases i.tabs k <;> rfl

theorem sc_fillSel {F E} (i : Inst F E) (k : Int) : fillSel (sc i) k = sc (fillSel i k) := by
  unfold fillSel selStringOn sc
  simp only
  split_ifs
  · cases i.strs k with
    | none => rfl
    | some s => simp only; split_ifs <;> rfl
  · rfl

theorem sc_foldl {F E β} (f : Inst F E → β → Inst F E) (hf : ∀ (i : Inst F E) (b : β), f (sc i) b = sc (f i b))
    (bs : List β) (i : Inst F E) : bs.foldl f (sc i) = sc (bs.foldl f i) := by
  induction bs generalizing i with
  | nil => rfl
  | cons b bs ih => rw [List.foldl_cons, hf, ih, List.foldl_cons]

theorem sc_applyEv {F E} (i : Inst F E) (ev : Ev F) : applyEv (sc i) ev = (applyEv i ev).map sc := by
  cases ev with
  | blocks ks => simp only [applyEv, sc_foldl _ sc_addBlock, Option.map_some]
  | flags o l p => rfl
  | output s => simp only [applyEv, sc_outputMsg, Option.map_some]
  | log s => simp only [applyEv, sc_logMsg, Option.map_some]
  | error s => simp only [applyEv, sc_errorMsg, Option.map_some]
  | warning s => simp only [applyEv, sc_warningMsg, Option.map_some]
  | punchMsg n s => simp only [applyEv, sc_punchText, Option.map_some]
  | punch n s k v =>
    simp only [applyEv, sc_punchText]
    have : (sc (punchText i n s)).tabs = (punchText i n s).tabs := rfl
    rw [this]
    cases (punchText i n s).tabs n with
    | none => rfl
    | some t => simp only [Option.map_map]; rfl
  | endRow n m =>
    simp only [applyEv]
    have : (sc i).tabs = i.tabs := rfl
    rw [this]
    cases i.tabs n with
    | none => rfl
    | some t => simp only [Option.map_map]; rfl

theorem sc_applyEvs {F E} (evs : List (Ev F)) (i : Inst F E) : applyEvs (sc i) evs = (applyEvs i evs).map sc := by
  induction evs generalizing i with
  | nil => rfl
  | cons ev evs ih =>
    simp only [applyEvs, sc_applyEv]
    cases applyEv i ev with
    | none => rfl
    | some j => simp only [Option.map_some, Option.bind_some]; exact ih j

theorem sc_endRun {F E} (e : Engine F E) (i : Inst F E) : endRun e (sc i) = sc (endRun e i) := by
  have h : ∀ k : Inst F E, (e.keys k.eng).foldl fillSel (sc k) = sc ((e.keys k.eng).foldl fillSel k) :=
    fun k => sc_foldl _ sc_fillSel _ _
  unfold endRun
  simp only
  rw [← h]
  cases h1 : i.logStrOn <;> cases h2 : i.outStrOn <;> simp [updateErrors, sc, h1, h2]

theorem sc_doRun {F E} (e : Engine F E) (i : Inst F E) (s : Text) : doRun e (sc i) s = (doRun e i s).map sc := by
  unfold doRun
  simp only [sc_applyEvs, Option.map_map]
  have h1 : (sc i).eng = i.eng := rfl
  have h2 : (sc i).outStrOn = i.outStrOn := rfl
  rw [h1, h2]
  congr 1
  funext j
  simp only [Function.comp]
  split_ifs
  · rfl
  · exact sc_endRun e { j with eng := (e.run i.eng i.outStrOn s).next, errors := (e.run i.eng i.outStrOn s).errors }

/-- With a database, a run of a text does not depend on the accumulated lines nor on the routine. -/
theorem sc_runBody {F E} (e : Engine F E) (r n r' n' s : Text) (i : Inst F E) (hdb : i.db = true) :
    runBody e r n (some s) (sc i) = (runBody e r' n' (some s) i).map sc := by
  have e1 : ∀ (a b : Text) (k : Inst F E), k.db = true →
      runBody e a b (some s) k = (doRun e { clearResults k with errors := 0 } s).map updateErrors := by
    intro a b k hk
    unfold runBody
    simp only
    rw [if_pos (show (clearResults k).db = true from hk)]
  rw [e1 _ _ i hdb, e1 _ _ (sc i) hdb]
  have h := sc_doRun e { clearResults i with errors := 0 } s
  have h0 : ({ clearResults (sc i) with errors := 0 } : Inst F E) = sc { clearResults i with errors := 0 } := rfl
  rw [h0, h, Option.map_map, Option.map_map]
  rfl

/-- Messages touch neither the engine nor the tables, nor the lines of the results. -/
theorem msg_keep {F E} (i : Inst F E) (s : Text) :
    ((outputMsg i s).eng = i.eng ∧ (outputMsg i s).tabs = i.tabs ∧ (outputMsg i s).outLines = i.outLines ∧
      (outputMsg i s).logLines = i.logLines ∧ (outputMsg i s).selLines = i.selLines ∧ (outputMsg i s).err = i.err) ∧
    ((logMsg i s).eng = i.eng ∧ (logMsg i s).tabs = i.tabs ∧ (logMsg i s).outLines = i.outLines ∧
      (logMsg i s).logLines = i.logLines ∧ (logMsg i s).selLines = i.selLines ∧ (logMsg i s).err = i.err) ∧
    ((errorMsg i s).eng = i.eng ∧ (errorMsg i s).tabs = i.tabs ∧ (errorMsg i s).outLines = i.outLines ∧
      (errorMsg i s).logLines = i.logLines ∧ (errorMsg i s).selLines = i.selLines ∧
      (errorMsg i s).err = if i.errStrOn ∧ i.errorOn then i.err ++ s else i.err) := by
  unfold outputMsg logMsg errorMsg addError
  refine ⟨?_, ?_, ?_⟩ <;> split_ifs <;> exact ⟨rfl, rfl, rfl, rfl, rfl, rfl⟩

theorem engineError_keep {F E} (i : Inst F E) (s : Text) :
    (engineError i s).eng = i.eng ∧ (engineError i s).tabs = i.tabs ∧
    (engineError i s).errors = (if i.errors ≤ 0 then 1 else i.errors) ∧
    (engineError i s).err = if i.errStrOn ∧ i.errorOn then i.err ++ (txt "ERROR: " ++ s ++ ['\n']) else i.err := by
  have h1 := (msg_keep i (txt "ERROR: " ++ s ++ ['\n'])).1
  have h2 := (msg_keep (outputMsg i (txt "ERROR: " ++ s ++ ['\n'])) (txt "ERROR: " ++ s ++ ['\n'])).2.1
  have h3 := (msg_keep (logMsg (outputMsg i (txt "ERROR: " ++ s ++ ['\n'])) (txt "ERROR: " ++ s ++ ['\n']))
    (txt "ERROR: " ++ s ++ ['\n'])).2.2
  have s1 := same_outputMsg i (txt "ERROR: " ++ s ++ ['\n'])
  have s2 := same_logMsg (outputMsg i (txt "ERROR: " ++ s ++ ['\n'])) (txt "ERROR: " ++ s ++ ['\n'])
  refine ⟨h3.1.trans (h2.1.trans h1.1), h3.2.1.trans (h2.2.1.trans h1.2.1), rfl, ?_⟩
  have := h3.2.2.2.2.2
  rw [s2.errStrOn, s1.errStrOn, s2.errorOn, s1.errorOn, h2.2.2.2.2.2, h1.2.2.2.2.2] at this
  exact this

theorem lines_applyEvs {F E} (evs : List (Ev F)) (i j : Inst F E) (h : applyEvs i evs = some j) :
    j.outLines = i.outLines ∧ j.logLines = i.logLines ∧ j.selLines = i.selLines := by
  induction evs generalizing i with
  | nil => simp only [applyEvs, Option.some.injEq] at h; subst h; exact ⟨rfl, rfl, rfl⟩
  | cons ev evs ih =>
    simp only [applyEvs, Option.bind_eq_some_iff] at h
    obtain ⟨m, h1, h2⟩ := h
    obtain ⟨i1, i2, i3⟩ := ih m h2
    suffices hm : m.outLines = i.outLines ∧ m.logLines = i.logLines ∧ m.selLines = i.selLines from
      ⟨i1.trans hm.1, i2.trans hm.2.1, i3.trans hm.2.2⟩
    have hp : ∀ n t, (punchText i n t).outLines = i.outLines ∧ (punchText i n t).logLines = i.logLines ∧
        (punchText i n t).selLines = i.selLines := by
      intro n t; unfold punchText; split_ifs <;> exact ⟨rfl, rfl, rfl⟩
    cases ev with
    | blocks ks =>
      simp only [applyEv, Option.some.injEq] at h1
      subst h1
      clear i1 i2 i3 h2 ih hp
      induction ks generalizing i with
      | nil => exact ⟨rfl, rfl, rfl⟩
      | cons q ks ihk =>
        have hq : (addBlock i q).outLines = i.outLines ∧ (addBlock i q).logLines = i.logLines ∧
            (addBlock i q).selLines = i.selLines := by unfold addBlock; split <;> exact ⟨rfl, rfl, rfl⟩
        have := ihk (addBlock i q)
        exact ⟨this.1.trans hq.1, this.2.1.trans hq.2.1, this.2.2.trans hq.2.2⟩
    | flags o l p => simp only [applyEv, Option.some.injEq] at h1; subst h1; exact ⟨rfl, rfl, rfl⟩
    | output t =>
      simp only [applyEv, Option.some.injEq] at h1; subst h1
      exact ⟨(msg_keep i t).1.2.2.1, (msg_keep i t).1.2.2.2.1, (msg_keep i t).1.2.2.2.2.1⟩
    | log t =>
      simp only [applyEv, Option.some.injEq] at h1; subst h1
      exact ⟨(msg_keep i t).2.1.2.2.1, (msg_keep i t).2.1.2.2.2.1, (msg_keep i t).2.1.2.2.2.2.1⟩
    | error t =>
      simp only [applyEv, Option.some.injEq] at h1; subst h1
      exact ⟨(msg_keep i t).2.2.2.2.1, (msg_keep i t).2.2.2.2.2.1, (msg_keep i t).2.2.2.2.2.2.1⟩
    | warning t =>
      simp only [applyEv, Option.some.injEq] at h1; subst h1
      have a := (msg_keep i (t ++ ['\n'])).2.1
      have b := (msg_keep (logMsg i (t ++ ['\n'])) (t ++ ['\n'])).1
      exact ⟨b.2.2.1.trans a.2.2.1, b.2.2.2.1.trans a.2.2.2.1, b.2.2.2.2.1.trans a.2.2.2.2.1⟩
    | punchMsg n t => simp only [applyEv, Option.some.injEq] at h1; subst h1; exact hp _ _
    | punch n t kk v =>
      simp only [applyEv] at h1
      split at h1
      · simp at h1
      · rw [Option.map_eq_some_iff] at h1; obtain ⟨t', _, rfl⟩ := h1; exact hp _ _
    | endRow n ms =>
      simp only [applyEv] at h1
      split at h1
      · simp only [Option.some.injEq] at h1; subst h1; exact ⟨rfl, rfl, rfl⟩
      · rw [Option.map_eq_some_iff] at h1; obtain ⟨t', _, rfl⟩ := h1; exact ⟨rfl, rfl, rfl⟩

/-! ### The switches, from the history -/

theorem loadDatabase_switch {F E} (e : Engine F E) (i j : Inst F E) (n : Text) (inp : Option Text)
    (h : loadDatabase e i n inp = some j) : j.cur = 1 ∧ j.strOn = put none1 1 false := by
  unfold loadDatabase at h
  simp only [Option.bind_eq_some_iff] at h
  obtain ⟨k, h1, h2⟩ := h
  have hk : k.cur = 1 ∧ k.strOn = put none1 1 false := by
    unfold loadDb at h1
    simp only [Option.map_eq_some_iff] at h1
    obtain ⟨m, h3, rfl⟩ := h1
    cases inp with
    | none =>
      simp only [Option.some.injEq] at h3; subst h3
      exact ⟨(same_engineError _ _).cur, (same_engineError _ _).strOn⟩
    | some s =>
      simp only [Option.map_eq_some_iff] at h3
      obtain ⟨m', h4, rfl⟩ := h3
      have := same_applyEvs _ _ _ h4
      exact ⟨this.cur, this.strOn⟩
  split_ifs at h2
  · unfold testDb at h2
    simp only [Option.map_eq_some_iff] at h2
    obtain ⟨m, h3, rfl⟩ := h2
    have := same_runBody _ _ _ _ _ _ h3
    exact ⟨this.cur.trans hk.1, this.strOn.trans hk.2⟩
  · simp only [Option.some.injEq] at h2; subst h2; exact hk

theorem getValue_switch {F E} (i : Inst F E) (ty row col : Int) (p : Inst F E × SelOut.Got F)
    (h : getValue i ty row col = some p) : p.1.cur = i.cur ∧ p.1.strOn = i.strOn := by
  unfold getValue at h
  simp only at h
  split at h
  · simp only [Option.some.injEq] at h; subst h; exact ⟨rfl, rfl⟩
  · rw [Option.map_eq_some_iff] at h
    obtain ⟨g, _, rfl⟩ := h
    split_ifs <;> exact ⟨rfl, rfl⟩

def SwOk {F E} (i : Inst F E) (back : List Call) : Prop :=
  i.cur = selected back ∧ ∀ n, switchedOn i n = userSwitch n back

theorem put_false (n : Int) : ((put none1 1 false : Int → Option Bool) n).getD false = false := by
  unfold put none1; split_ifs <;> rfl

theorem step_switch {F E} (e : Engine F E) (fs : Text → Option Text) (i : Inst F E) (back : List Call) (c : Call)
    (p : Inst F E × Int) (hi : SwOk i back) (h : step e fs i c = some p) : SwOk p.1 (c :: back) := by
  obtain ⟨h1, h2⟩ := hi
  have keep : ∀ j : Inst F E, j.cur = i.cur ∧ j.strOn = i.strOn → j.cur = selected back ∧ ∀ n, switchedOn j n = userSwitch n back := by
    intro j hj
    refine ⟨hj.1.trans h1, fun n => ?_⟩
    have := h2 n
    unfold switchedOn at this ⊢
    rw [hj.2]; exact this
  cases c <;> simp only [step, Option.some.injEq] at h
  case accumulateLine l =>
    subst h
    exact keep _ (by unfold accumulateLine; cases i.clearAcc <;> exact ⟨rfl, rfl⟩)
  case runAccumulated =>
    rw [Option.map_eq_some_iff] at h
    obtain ⟨j, hj, rfl⟩ := h
    unfold runAccumulated at hj
    rw [Option.map_eq_some_iff] at hj
    obtain ⟨k, hk, rfl⟩ := hj
    have := same_runBody _ _ _ _ _ _ hk
    exact keep _ ⟨this.cur, this.strOn⟩
  case runString s =>
    rw [Option.map_eq_some_iff] at h
    obtain ⟨j, hj, rfl⟩ := h
    have := same_runBody _ _ _ _ _ _ hj
    exact keep _ ⟨this.cur, this.strOn⟩
  case runFile s =>
    rw [Option.map_eq_some_iff] at h
    obtain ⟨j, hj, rfl⟩ := h
    have := same_runBody _ _ _ _ _ _ hj
    exact keep _ ⟨this.cur, this.strOn⟩
  case loadDatabase s =>
    rw [Option.map_eq_some_iff] at h
    obtain ⟨j, hj, rfl⟩ := h
    have := loadDatabase_switch _ _ _ _ _ hj
    refine ⟨this.1, fun n => ?_⟩
    unfold switchedOn
    rw [this.2]
    exact put_false n
  case loadDatabaseString s =>
    rw [Option.map_eq_some_iff] at h
    obtain ⟨j, hj, rfl⟩ := h
    have := loadDatabase_switch _ _ _ _ _ hj
    refine ⟨this.1, fun n => ?_⟩
    unfold switchedOn
    rw [this.2]
    exact put_false n
  case setCurrentSelectedOutputUserNumber n =>
    split_ifs at h with hn
    · subst h
      exact ⟨by simp [selected, hn], fun m => h2 m⟩
    · subst h
      exact ⟨by simp [selected, hn, h1], fun m => h2 m⟩
  case setSelectedOutputStringOn b =>
    subst h
    refine ⟨h1, fun m => ?_⟩
    simp only [switchedOn, put, userSwitch, h1]
    by_cases hm : m = selected back
    · rw [if_pos hm, if_pos hm.symm]; rfl
    · rw [if_neg hm, if_neg (fun x => hm x.symm)]; exact h2 m
  case getSelectedOutputValue ty row col =>
    rw [Option.map_eq_some_iff] at h
    obtain ⟨q, hq, rfl⟩ := h
    exact keep _ (getValue_switch _ _ _ _ _ hq)
  all_goals (subst h; exact keep _ ⟨rfl, rfl⟩)

theorem runCalls_switch {F E} (e : Engine F E) (fs : Text → Option Text) (h : List Call) (back : List Call) (i j : Inst F E)
    (hi : SwOk i back) (hr : runCalls e fs i h = some j) : SwOk j (h.reverse ++ back) := by
  induction h generalizing i back with
  | nil => simp only [runCalls, Option.some.injEq] at hr; subst hr; simpa using hi
  | cons c h ih =>
    simp only [runCalls, Option.bind_eq_some_iff] at hr
    obtain ⟨p, hp, hr⟩ := hr
    simpa using ih (c :: back) p.1 (step_switch e fs i back c p hi hp) hr

theorem create_switch {F E} (e : Engine F E) : SwOk (create e) [] := ⟨rfl, fun n => put_false n⟩

end Verif.IPq
