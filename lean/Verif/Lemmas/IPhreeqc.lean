import Verif.Spec.IPhreeqc
import Verif.Lemmas.SelOut
import Mathlib.Tactic.SplitIfs
/- Helper lemmas for the chemistry instances. -/
namespace Verif.IPq
open Verif.SelOut (Cell Table)

/-- The fields no engine callback and no end-of-run bookkeeping touches. -/
structure Same {F E} (i j : Inst F E) : Prop where
  lines : j.lines = i.lines
  clearAcc : j.clearAcc = i.clearAcc
  cur : j.cur = i.cur
  strOn : j.strOn = i.strOn
  db : j.db = i.db
  outStrOn : j.outStrOn = i.outStrOn
  logStrOn : j.logStrOn = i.logStrOn
  errStrOn : j.errStrOn = i.errStrOn
  errorOn : j.errorOn = i.errorOn

theorem Same.rfl' {F E} {i : Inst F E} : Same i i := ⟨rfl, rfl, rfl, rfl, rfl, rfl, rfl, rfl, rfl⟩

theorem Same.trans {F E} {i j k : Inst F E} (h : Same i j) (g : Same j k) : Same i k :=
  ⟨g.1.trans h.1, g.2.trans h.2, g.3.trans h.3, g.4.trans h.4, g.5.trans h.5, g.6.trans h.6, g.7.trans h.7,
   g.8.trans h.8, g.9.trans h.9⟩

theorem same_outputMsg {F E} (i : Inst F E) (s : Text) : Same i (outputMsg i s) := by
  unfold outputMsg; split_ifs <;> exact ⟨rfl, rfl, rfl, rfl, rfl, rfl, rfl, rfl, rfl⟩

theorem same_logMsg {F E} (i : Inst F E) (s : Text) : Same i (logMsg i s) := by
  unfold logMsg; split_ifs <;> exact ⟨rfl, rfl, rfl, rfl, rfl, rfl, rfl, rfl, rfl⟩

theorem same_errorMsg {F E} (i : Inst F E) (s : Text) : Same i (errorMsg i s) := by
  unfold errorMsg addError; split_ifs <;> exact ⟨rfl, rfl, rfl, rfl, rfl, rfl, rfl, rfl, rfl⟩

theorem same_addWarning {F E} (i : Inst F E) (s : Text) : Same i (addWarning i s) :=
  ⟨rfl, rfl, rfl, rfl, rfl, rfl, rfl, rfl, rfl⟩

theorem same_warningMsg {F E} (i : Inst F E) (s : Text) : Same i (warningMsg i s) :=
  ((same_logMsg _ _).trans (same_outputMsg _ _)).trans (same_addWarning _ _)

theorem same_punchText {F E} (i : Inst F E) (n : Int) (s : Text) : Same i (punchText i n s) := by
  unfold punchText; split_ifs <;> exact ⟨rfl, rfl, rfl, rfl, rfl, rfl, rfl, rfl, rfl⟩

theorem same_engineError {F E} (i : Inst F E) (s : Text) : Same i (engineError i s) := by
  have := ((same_outputMsg i (txt "ERROR: " ++ s ++ ['\n'])).trans
    (same_logMsg _ (txt "ERROR: " ++ s ++ ['\n']))).trans (same_errorMsg _ (txt "ERROR: " ++ s ++ ['\n']))
  exact ⟨this.1, this.2, this.3, this.4, this.5, this.6, this.7, this.8, this.9⟩

theorem same_addBlock {F E} (i : Inst F E) (k : Int) : Same i (addBlock i k) := by
  unfold addBlock; split <;> exact ⟨rfl, rfl, rfl, rfl, rfl, rfl, rfl, rfl, rfl⟩

theorem same_foldl {F E β} (f : Inst F E → β → Inst F E) (hf : ∀ (i : Inst F E) (b : β), Same i (f i b))
    (bs : List β) (i : Inst F E) : Same i (bs.foldl f i) := by
  induction bs generalizing i with
  | nil => exact Same.rfl'
  | cons b bs ih => exact (hf i b).trans (ih _)

theorem same_applyEv {F E} (i j : Inst F E) (ev : Ev F) (h : applyEv i ev = some j) : Same i j := by
  cases ev with
  | blocks ks => simp only [applyEv, Option.some.injEq] at h; subst h; exact same_foldl _ same_addBlock _ _
  | flags o l p => simp only [applyEv, Option.some.injEq] at h; subst h; exact ⟨rfl, rfl, rfl, rfl, rfl, rfl, rfl, rfl, rfl⟩
  | output s => simp only [applyEv, Option.some.injEq] at h; subst h; exact same_outputMsg _ _
  | log s => simp only [applyEv, Option.some.injEq] at h; subst h; exact same_logMsg _ _
  | error s => simp only [applyEv, Option.some.injEq] at h; subst h; exact same_errorMsg _ _
  | warning s => simp only [applyEv, Option.some.injEq] at h; subst h; exact same_warningMsg _ _
  | punchMsg n s => simp only [applyEv, Option.some.injEq] at h; subst h; exact same_punchText _ _ _
  | punch n s k v =>
    simp only [applyEv] at h
    split at h
    · simp at h
    · rw [Option.map_eq_some_iff] at h
      obtain ⟨t', _, rfl⟩ := h
      have := same_punchText i n s
      exact ⟨this.1, this.2, this.3, this.4, this.5, this.6, this.7, this.8, this.9⟩
  | endRow n m =>
    simp only [applyEv] at h
    split at h
    · simp only [Option.some.injEq] at h; subst h; exact Same.rfl'
    · rw [Option.map_eq_some_iff] at h
      obtain ⟨t', _, rfl⟩ := h
      exact ⟨rfl, rfl, rfl, rfl, rfl, rfl, rfl, rfl, rfl⟩

theorem same_applyEvs {F E} (evs : List (Ev F)) (i j : Inst F E) (h : applyEvs i evs = some j) : Same i j := by
  induction evs generalizing i with
  | nil => simp only [applyEvs, Option.some.injEq] at h; subst h; exact Same.rfl'
  | cons ev evs ih =>
    simp only [applyEvs, Option.bind_eq_some_iff] at h
    obtain ⟨k, h1, h2⟩ := h
    exact (same_applyEv _ _ _ h1).trans (ih _ h2)

theorem same_updateErrors {F E} (i : Inst F E) : Same i (updateErrors i) :=
  ⟨rfl, rfl, rfl, rfl, rfl, rfl, rfl, rfl, rfl⟩

theorem same_fillSel {F E} (i : Inst F E) (n : Int) : Same i (fillSel i n) := by
  unfold fillSel
  split
  · split
    · exact Same.rfl'
    · split_ifs
      · exact Same.rfl'
      · exact ⟨rfl, rfl, rfl, rfl, rfl, rfl, rfl, rfl, rfl⟩
  · exact Same.rfl'

theorem same_endRun {F E} (e : Engine F E) (i : Inst F E) : Same i (endRun e i) := by
  unfold endRun
  refine Same.trans ?_ (same_foldl _ same_fillSel _ _)
  refine (same_updateErrors i).trans ?_
  split_ifs <;> exact ⟨rfl, rfl, rfl, rfl, rfl, rfl, rfl, rfl, rfl⟩

theorem same_doRun {F E} (e : Engine F E) (i j : Inst F E) (s : Text) (h : doRun e i s = some j) : Same i j := by
  unfold doRun at h
  rw [Option.map_eq_some_iff] at h
  obtain ⟨k, h1, rfl⟩ := h
  have h2 := same_applyEvs _ _ _ h1
  have h3 : Same i { k with eng := (e.run i.eng i.outStrOn s).next, errors := (e.run i.eng i.outStrOn s).errors } :=
    ⟨h2.1, h2.2, h2.3, h2.4, h2.5, h2.6, h2.7, h2.8, h2.9⟩
  simp only
  split_ifs
  · exact h3
  · exact h3.trans (same_endRun _ _)

theorem same_runBody {F E} (e : Engine F E) (r n : Text) (inp : Option Text) (i j : Inst F E)
    (h : runBody e r n inp i = some j) : Same i j := by
  unfold runBody at h
  simp only [Option.map_eq_some_iff] at h
  obtain ⟨k, h1, rfl⟩ := h
  refine Same.trans ?_ (same_updateErrors _)
  have hc : ∀ (x : Int), Same i { clearResults i with errors := x } := fun x =>
    ⟨rfl, rfl, rfl, rfl, rfl, rfl, rfl, rfl, rfl⟩
  split at h1
  · cases inp with
    | none => simp only [Option.some.injEq] at h1; subst h1; exact (hc 0).trans (same_engineError _ _)
    | some s => exact (hc 0).trans (same_doRun _ _ _ _ h1)
  · simp only [Option.some.injEq] at h1; subst h1; exact (hc 1).trans (same_engineError _ _)

/-! ### Accumulated lines -/

theorem asText_append (a b : List Text) : asText (a ++ b) = asText a ++ asText b := by
  simp [asText]

theorem loadDatabase_lines {F E} (e : Engine F E) (i j : Inst F E) (n : Text) (inp : Option Text)
    (h : loadDatabase e i n inp = some j) : j.lines = [] ∧ j.clearAcc = false := by
  unfold loadDatabase at h
  simp only [Option.bind_eq_some_iff] at h
  obtain ⟨k, h1, h2⟩ := h
  have hk : k.lines = [] ∧ k.clearAcc = false := by
    unfold loadDb at h1
    simp only [Option.map_eq_some_iff] at h1
    obtain ⟨m, h3, rfl⟩ := h1
    cases inp with
    | none =>
      simp only [Option.some.injEq] at h3; subst h3
      exact ⟨(same_engineError _ _).lines, (same_engineError _ _).clearAcc⟩
    | some s =>
      simp only [Option.map_eq_some_iff] at h3
      obtain ⟨m', h4, rfl⟩ := h3
      have := same_applyEvs _ _ _ h4
      exact ⟨this.lines, this.clearAcc⟩
  split_ifs at h2
  · unfold testDb at h2
    simp only [Option.map_eq_some_iff] at h2
    obtain ⟨m, h3, rfl⟩ := h2
    have := same_runBody _ _ _ _ _ _ h3
    exact ⟨this.lines, this.clearAcc⟩
  · simp only [Option.some.injEq] at h2; subst h2; exact hk

theorem getValue_same {F E} (i : Inst F E) (ty row col : Int) (p : Inst F E × SelOut.Got F)
    (h : getValue i ty row col = some p) : p.1.lines = i.lines ∧ p.1.clearAcc = i.clearAcc := by
  unfold getValue at h
  simp only at h
  split at h
  · simp only [Option.some.injEq] at h; subst h; exact ⟨rfl, rfl⟩
  · rw [Option.map_eq_some_iff] at h
    obtain ⟨g, _, rfl⟩ := h
    split_ifs <;> exact ⟨rfl, rfl⟩

/-- Invariant: what is stored, and what the next added line will be appended to. -/
def AccOk {F E} (i : Inst F E) (back : List Call) : Prop :=
  i.lines = asText (inForce false back) ∧ (if i.clearAcc then [] else i.lines) = asText (inForce true back)

theorem step_acc {F E} (e : Engine F E) (fs : Text → Option Text) (i : Inst F E) (back : List Call) (c : Call)
    (p : Inst F E × Int) (hi : AccOk i back) (h : step e fs i c = some p) : AccOk p.1 (c :: back) := by
  obtain ⟨h1, h2⟩ := hi
  cases c <;> simp only [step, Option.some.injEq] at h
  case accumulateLine l =>
    subst h
    have key : (accumulateLine i l).lines = (if i.clearAcc then [] else i.lines) ++ l ++ ['\n'] ∧
        (accumulateLine i l).clearAcc = false := by
      unfold accumulateLine
      cases hc : i.clearAcc <;> simp [hc]
    refine ⟨?_, ?_⟩
    · rw [key.1, h2]; simp [inForce, asText]
    · rw [key.2, key.1, h2]; simp [inForce, asText]
  case clearAccumulatedLines => subst h; simp [AccOk, inForce, asText]
  case runAccumulated =>
    rw [Option.map_eq_some_iff] at h
    obtain ⟨j, hj, rfl⟩ := h
    unfold runAccumulated at hj
    rw [Option.map_eq_some_iff] at hj
    obtain ⟨k, hk, rfl⟩ := hj
    have := same_runBody _ _ _ _ _ _ hk
    refine ⟨by simpa [inForce] using this.lines.trans h1, by simp [inForce, asText]⟩
  case runString s =>
    rw [Option.map_eq_some_iff] at h
    obtain ⟨j, hj, rfl⟩ := h
    have := same_runBody _ _ _ _ _ _ hj
    simp only [AccOk, this.lines, this.clearAcc]
    simp [inForce, asText]
  case runFile s =>
    rw [Option.map_eq_some_iff] at h
    obtain ⟨j, hj, rfl⟩ := h
    have := same_runBody _ _ _ _ _ _ hj
    simp only [AccOk, this.lines, this.clearAcc]
    simp [inForce, asText]
  case loadDatabase s =>
    rw [Option.map_eq_some_iff] at h
    obtain ⟨j, hj, rfl⟩ := h
    have := loadDatabase_lines _ _ _ _ _ hj
    simp [AccOk, this.1, this.2, inForce, asText]
  case loadDatabaseString s =>
    rw [Option.map_eq_some_iff] at h
    obtain ⟨j, hj, rfl⟩ := h
    have := loadDatabase_lines _ _ _ _ _ hj
    simp [AccOk, this.1, this.2, inForce, asText]
  case setCurrentSelectedOutputUserNumber n => split_ifs at h <;> (subst h; exact ⟨h1, h2⟩)
  case getSelectedOutputValue ty row col =>
    rw [Option.map_eq_some_iff] at h
    obtain ⟨q, hq, rfl⟩ := h
    have := getValue_same _ _ _ _ _ hq
    refine ⟨by simpa [inForce] using this.1.trans h1, ?_⟩
    simpa [inForce, this.1, this.2] using h2
  all_goals (subst h; exact ⟨h1, h2⟩)

theorem runCalls_acc {F E} (e : Engine F E) (fs : Text → Option Text) (h : List Call) (back : List Call) (i j : Inst F E)
    (hi : AccOk i back) (hr : runCalls e fs i h = some j) : AccOk j (h.reverse ++ back) := by
  induction h generalizing i back with
  | nil => simp only [runCalls, Option.some.injEq] at hr; subst hr; simpa using hi
  | cons c h ih =>
    simp only [runCalls, Option.bind_eq_some_iff] at hr
    obtain ⟨p, hp, hr⟩ := hr
    simpa using ih (c :: back) p.1 (step_acc e fs i back c p hi hp) hr

/-! ### Lines -/

theorem getlines_ne_nil (c : Char) (r : Text) : getlines (c :: r) ≠ [] := by
  unfold getlines
  split_ifs
  · simp
  · split <;> simp

theorem isLines_getlines (t : Text) : IsLines t (getlines t) := by
  induction t with
  | nil => exact ⟨by simp [getlines], .inl (by simp [getlines, asText])⟩
  | cons c r ih =>
    obtain ⟨h1, h2⟩ := ih
    unfold getlines
    split_ifs with hc
    · subst hc
      refine ⟨?_, ?_⟩
      · intro l hl
        rw [List.mem_cons] at hl
        rcases hl with rfl | hl
        · simp
        · exact h1 l hl
      · rcases h2 with h2 | ⟨ls', l, h3, h4, h5⟩
        · exact .inl (by conv_lhs => rw [h2]
                         simp [asText])
        · refine .inr ⟨[] :: ls', l, by simp [h3], h4, ?_⟩
          conv_lhs => rw [h5]
          simp [asText]
    · cases hr : getlines r with
      | nil =>
        rw [hr] at h2
        have : r = [] := by
          cases r with
          | nil => rfl
          | cons d r => exact absurd hr (getlines_ne_nil d r)
        subst this
        refine ⟨?_, .inr ⟨[], [c], rfl, by simp, by simp [asText]⟩⟩
        intro l hl
        simp only [List.mem_singleton] at hl
        subst hl
        simpa [eq_comm] using hc
      | cons l ls =>
        rw [hr] at h1 h2
        refine ⟨?_, ?_⟩
        · intro m hm
          rw [List.mem_cons] at hm
          rcases hm with rfl | hm
          · have := h1 l (by simp)
            simp only [List.mem_cons, not_or]
            exact ⟨fun e => hc e.symm, this⟩
          · exact h1 m (by simp [hm])
        · rcases h2 with h2 | ⟨ls', l', h3, h4, h5⟩
          · refine .inl ?_
            conv_lhs => rw [h2]
            simp [asText]
          · rcases ls' with _ | ⟨m, ls'⟩
            · simp only [List.nil_append, List.cons.injEq] at h3
              obtain ⟨rfl, rfl⟩ := h3
              refine .inr ⟨[], c :: l, rfl, by simp, ?_⟩
              conv_lhs => rw [h5]
              simp [asText]
            · simp only [List.cons_append, List.cons.injEq] at h3
              obtain ⟨rfl, rfl⟩ := h3
              refine .inr ⟨(c :: l) :: ls', l', by simp, h4, ?_⟩
              conv_lhs => rw [h5]
              simp [asText]

/-! ### Captured text and tables -/

theorem strs_foldl_addBlock {F E} (ks : List Int) (i : Inst F E) (n : Int) :
    (((ks.foldl addBlock i).strs n).getD [] = (i.strs n).getD []) ∧ (ks.foldl addBlock i).punchOn = i.punchOn := by
  induction ks generalizing i with
  | nil => exact ⟨rfl, rfl⟩
  | cons k ks ih =>
    simp only [List.foldl_cons]
    rw [(ih _).1, (ih _).2]
    unfold addBlock
    split
    · exact ⟨rfl, rfl⟩
    · refine ⟨?_, rfl⟩
      cases hs : i.strs k with
      | some x => rfl
      | none =>
        simp only [put]
        split_ifs with hn
        · subst hn; simp [hs]
        · rfl

theorem msg_strs {F E} (i : Inst F E) (s : Text) :
    ((outputMsg i s).strs = i.strs ∧ (outputMsg i s).punchOn = i.punchOn ∧ (outputMsg i s).tabs = i.tabs) ∧
    ((logMsg i s).strs = i.strs ∧ (logMsg i s).punchOn = i.punchOn ∧ (logMsg i s).tabs = i.tabs) ∧
    ((errorMsg i s).strs = i.strs ∧ (errorMsg i s).punchOn = i.punchOn ∧ (errorMsg i s).tabs = i.tabs) := by
  unfold outputMsg logMsg errorMsg addError
  split_ifs <;> exact ⟨⟨rfl, rfl, rfl⟩, ⟨rfl, rfl, rfl⟩, ⟨rfl, rfl, rfl⟩⟩

theorem warning_strs {F E} (i : Inst F E) (s : Text) :
    (warningMsg i s).strs = i.strs ∧ (warningMsg i s).punchOn = i.punchOn ∧ (warningMsg i s).tabs = i.tabs := by
  unfold warningMsg addWarning
  have h1 := (msg_strs (logMsg i (s ++ ['\n'])) (s ++ ['\n'])).1
  have h2 := (msg_strs i (s ++ ['\n'])).2.1
  exact ⟨h1.1.trans h2.1, h1.2.1.trans h2.2.1, h1.2.2.trans h2.2.2⟩

theorem punchText_strs {F E} (i : Inst F E) (m : Int) (s : Text) (n : Int) :
    ((punchText i m s).strs n).getD [] =
      (i.strs n).getD [] ++ (if switchedOn i i.cur ∧ m = n ∧ i.punchOn then s else []) ∧
    (punchText i m s).punchOn = i.punchOn ∧ (punchText i m s).tabs = i.tabs := by
  unfold punchText selStringOn switchedOn
  by_cases h1 : (i.strOn i.cur).getD false = true
  · by_cases h2 : i.punchOn = true
    · by_cases h3 : m = n
      · subst h3; simp [h1, h2, put]
      · simp [h1, h2, h3, put, eq_comm]
    · simp [h1, h2]
  · simp [h1]

theorem strs_applyEvs {F E} (evs : List (Ev F)) (i j : Inst F E) (n : Int) (h : applyEvs i evs = some j) :
    (j.strs n).getD [] = (i.strs n).getD [] ++ (if switchedOn i i.cur then written n i.punchOn evs else []) := by
  induction evs generalizing i with
  | nil => simp only [applyEvs, Option.some.injEq] at h; subst h; simp [written]
  | cons ev evs ih =>
    simp only [applyEvs, Option.bind_eq_some_iff] at h
    obtain ⟨k, h1, h2⟩ := h
    have hs := same_applyEv _ _ _ h1
    have ih' := ih k h2
    have hsw : switchedOn k k.cur = switchedOn i i.cur := by unfold switchedOn; rw [hs.strOn, hs.cur]
    rw [hsw] at ih'
    rw [ih']
    cases ev with
    | blocks ks =>
      simp only [applyEv, Option.some.injEq] at h1; subst h1
      rw [(strs_foldl_addBlock ks i n).1, (strs_foldl_addBlock ks i n).2]; rfl
    | flags o l p => simp only [applyEv, Option.some.injEq] at h1; subst h1; rfl
    | output s => simp only [applyEv, Option.some.injEq] at h1; subst h1; rw [(msg_strs i s).1.1, (msg_strs i s).1.2.1]; rfl
    | log s => simp only [applyEv, Option.some.injEq] at h1; subst h1; rw [(msg_strs i s).2.1.1, (msg_strs i s).2.1.2.1]; rfl
    | error s => simp only [applyEv, Option.some.injEq] at h1; subst h1; rw [(msg_strs i s).2.2.1, (msg_strs i s).2.2.2.1]; rfl
    | warning s => simp only [applyEv, Option.some.injEq] at h1; subst h1; rw [(warning_strs i s).1, (warning_strs i s).2.1]; rfl
    | punchMsg m s =>
      simp only [applyEv, Option.some.injEq] at h1; subst h1
      obtain ⟨a, b, _⟩ := punchText_strs i m s n
      rw [a, b]
      cases switchedOn i i.cur <;> simp [written]
    | punch m s key v =>
      simp only [applyEv] at h1
      split at h1
      · simp at h1
      · rw [Option.map_eq_some_iff] at h1
        obtain ⟨t', _, rfl⟩ := h1
        obtain ⟨a, b, _⟩ := punchText_strs i m s n
        simp only
        rw [a, b]
        cases switchedOn i i.cur <;> simp [written]
    | endRow m ms =>
      simp only [applyEv] at h1
      split at h1
      · simp only [Option.some.injEq] at h1; subst h1; rfl
      · rw [Option.map_eq_some_iff] at h1
        obtain ⟨t', _, rfl⟩ := h1
        rfl

theorem run_append' {F} (a b : List (SelOut.Op F)) (t : Table F) :
    SelOut.run t (a ++ b) = (SelOut.run t a).bind fun t' => SelOut.run t' b := by
  induction a generalizing t with
  | nil => rfl
  | cons o a ih =>
    cases o with
    | push k v =>
      simp only [List.cons_append, SelOut.run]
      cases SelOut.pushBack t k v with
      | none => rfl
      | some t' => exact ih t'
    | endRow => exact ih _
    | clear => exact ih _

theorem pushMissing_run {F} (ms : List Text) (t : Table F) :
    pushMissing t ms = SelOut.run t (ms.map fun h => SelOut.Op.push h .empty) := by
  induction ms generalizing t with
  | nil => rfl
  | cons m ms ih =>
    simp only [pushMissing, List.map_cons, SelOut.run]
    congr 1
    funext t'
    exact ih t'

theorem tabs_addBlock {F E} (i : Inst F E) (k n : Int) :
    (addBlock i k).tabs n = if n = k ∧ i.tabs n = none then some SelOut.init else i.tabs n := by
  cases hk : i.tabs k with
  | some t =>
    have : addBlock i k = i := by simp [addBlock, hk]
    rw [this]
    by_cases hnk : n = k
    · subst hnk; simp [hk]
    · simp [hnk]
  | none =>
    have : (addBlock i k).tabs = put i.tabs k SelOut.init := by simp [addBlock, hk]
    rw [this]
    unfold put
    by_cases hnk : n = k
    · subst hnk; simp [hk]
    · simp [hnk]

theorem tabs_foldl_addBlock {F E} (ks : List Int) (i : Inst F E) (n : Int) :
    (ks.foldl addBlock i).tabs n = match i.tabs n with
      | some t => some t
      | none => if n ∈ ks then some SelOut.init else none := by
  induction ks generalizing i with
  | nil => cases h : i.tabs n <;> simp [h]
  | cons k ks ih =>
    simp only [List.foldl_cons]
    rw [ih, tabs_addBlock]
    cases hn : i.tabs n with
    | some t => simp
    | none =>
      by_cases hnk : n = k
      · subst hnk; simp
      · simp [hnk]

/-- The table of block `n` after the engine's calls. -/
def tabSpec {F} (n : Int) (t0 : Option (Table F)) (evs : List (Ev F)) : Option (Table F) :=
  match t0 with
  | some t => SelOut.run t (tableOps n true evs)
  | none => if announced n evs then SelOut.run SelOut.init (tableOps n false evs) else none

theorem tabs_applyEvs {F E} (evs : List (Ev F)) (i j : Inst F E) (n : Int) (h : applyEvs i evs = some j) :
    j.tabs n = tabSpec n (i.tabs n) evs := by
  induction evs generalizing i with
  | nil =>
    simp only [applyEvs, Option.some.injEq] at h; subst h
    unfold tabSpec
    cases i.tabs n <;> simp [tableOps, announced, SelOut.run]
  | cons ev evs ih =>
    simp only [applyEvs, Option.bind_eq_some_iff] at h
    obtain ⟨k, h1, h2⟩ := h
    rw [ih k h2]
    have skip : ∀ (hk : k.tabs = i.tabs) (ho : ∀ b, tableOps n b (ev :: evs) = tableOps n b evs)
        (ha : announced n (ev :: evs) = announced n evs), tabSpec n (k.tabs n) evs = tabSpec n (i.tabs n) (ev :: evs) := by
      intro hk ho ha
      unfold tabSpec
      rw [hk]
      simp only [ho, ha]
    cases ev with
    | blocks ks =>
      simp only [applyEv, Option.some.injEq] at h1; subst h1
      rw [tabs_foldl_addBlock]
      unfold tabSpec
      cases hn : i.tabs n with
      | some t => simp [tableOps]
      | none =>
        by_cases hk : n ∈ ks
        · simp [hk, tableOps, announced]
        · simp [hk, tableOps, announced]
    | flags o l p => simp only [applyEv, Option.some.injEq] at h1; subst h1; exact skip rfl (fun _ => rfl) (by simp [announced])
    | output s => simp only [applyEv, Option.some.injEq] at h1; subst h1; exact skip (msg_strs i s).1.2.2 (fun _ => rfl) (by simp [announced])
    | log s => simp only [applyEv, Option.some.injEq] at h1; subst h1; exact skip (msg_strs i s).2.1.2.2 (fun _ => rfl) (by simp [announced])
    | error s => simp only [applyEv, Option.some.injEq] at h1; subst h1; exact skip (msg_strs i s).2.2.2.2 (fun _ => rfl) (by simp [announced])
    | warning s => simp only [applyEv, Option.some.injEq] at h1; subst h1; exact skip (warning_strs i s).2.2 (fun _ => rfl) (by simp [announced])
    | punchMsg m s => simp only [applyEv, Option.some.injEq] at h1; subst h1; exact skip (punchText_strs i m s 0).2.2 (fun _ => rfl) (by simp [announced])
    | punch m s key v =>
      simp only [applyEv, (punchText_strs i m s 0).2.2] at h1
      cases hm : i.tabs m with
      | none => rw [hm] at h1; simp at h1
      | some t =>
        rw [hm] at h1
        simp only [Option.map_eq_some_iff] at h1
        obtain ⟨t', ht, rfl⟩ := h1
        simp only [put]
        by_cases hnm : n = m
        · subst hnm
          rw [hm]
          simp only [tabSpec, if_true]
          simp [tableOps, SelOut.run, ht]
        · rw [if_neg hnm]
          unfold tabSpec
          have hmn : ¬ m = n := fun e => hnm e.symm
          simp [tableOps, hmn, announced]
    | endRow m ms =>
      simp only [applyEv] at h1
      cases hm : i.tabs m with
      | none =>
        rw [hm] at h1
        simp only [Option.some.injEq] at h1; subst h1
        unfold tabSpec
        by_cases hnm : n = m
        · subst hnm; rw [hm]; simp [tableOps, announced]
        · have hmn : ¬ m = n := fun e => hnm e.symm
          simp [tableOps, hmn, announced]
      | some t =>
        rw [hm] at h1
        simp only [Option.map_eq_some_iff] at h1
        obtain ⟨t', ht, rfl⟩ := h1
        simp only [put]
        by_cases hnm : n = m
        · subst hnm
          rw [hm]
          simp only [tabSpec, if_true]
          rw [pushMissing_run] at ht
          simp only [tableOps, and_self, if_true]
          rw [run_append', run_append', ht]
          rfl
        · rw [if_neg hnm]
          unfold tabSpec
          have hmn : ¬ m = n := fun e => hnm e.symm
          simp [tableOps, hmn, announced]

theorem fillSel_keep {F E} (ks : List Int) (i : Inst F E) :
    (ks.foldl fillSel i).strs = i.strs ∧ (ks.foldl fillSel i).tabs = i.tabs ∧ (ks.foldl fillSel i).out = i.out ∧
    (ks.foldl fillSel i).outLines = i.outLines ∧ (ks.foldl fillSel i).log = i.log ∧
    (ks.foldl fillSel i).logLines = i.logLines ∧ (ks.foldl fillSel i).err = i.err ∧ (ks.foldl fillSel i).warn = i.warn ∧
    (ks.foldl fillSel i).errors = i.errors ∧ (ks.foldl fillSel i).eng = i.eng := by
  induction ks generalizing i with
  | nil => exact ⟨rfl, rfl, rfl, rfl, rfl, rfl, rfl, rfl, rfl, rfl⟩
  | cons k ks ih =>
    simp only [List.foldl_cons]
    have hk : (fillSel i k).strs = i.strs ∧ (fillSel i k).tabs = i.tabs ∧ (fillSel i k).out = i.out ∧
        (fillSel i k).outLines = i.outLines ∧ (fillSel i k).log = i.log ∧
        (fillSel i k).logLines = i.logLines ∧ (fillSel i k).err = i.err ∧ (fillSel i k).warn = i.warn ∧
        (fillSel i k).errors = i.errors ∧ (fillSel i k).eng = i.eng := by
      unfold fillSel
      split
      · split
        · exact ⟨rfl, rfl, rfl, rfl, rfl, rfl, rfl, rfl, rfl, rfl⟩
        · split_ifs <;> exact ⟨rfl, rfl, rfl, rfl, rfl, rfl, rfl, rfl, rfl, rfl⟩
      · exact ⟨rfl, rfl, rfl, rfl, rfl, rfl, rfl, rfl, rfl, rfl⟩
    have := ih (fillSel i k)
    obtain ⟨a1, a2, a3, a4, a5, a6, a7, a8, a9, a10⟩ := this
    obtain ⟨b1, b2, b3, b4, b5, b6, b7, b8, b9, b10⟩ := hk
    exact ⟨a1.trans b1, a2.trans b2, a3.trans b3, a4.trans b4, a5.trans b5, a6.trans b6, a7.trans b7, a8.trans b8,
      a9.trans b9, a10.trans b10⟩

theorem endRun_keep {F E} (e : Engine F E) (i : Inst F E) :
    (endRun e i).strs = i.strs ∧ (endRun e i).tabs = i.tabs ∧ (endRun e i).out = i.out ∧
    (endRun e i).outLines = i.outLines ++ (if i.outStrOn then getlines i.out else []) ∧ (endRun e i).log = i.log ∧
    (endRun e i).logLines = i.logLines ++ (if i.logStrOn then getlines i.log else []) ∧
    (endRun e i).err = i.err ∧ (endRun e i).warn = i.warn ∧ (endRun e i).errors = i.errors ∧ (endRun e i).eng = i.eng := by
  unfold endRun
  simp only
  obtain ⟨a1, a2, a3, a4, a5, a6, a7, a8, a9, a10⟩ := fillSel_keep
    (e.keys (if (if (updateErrors i).logStrOn = true then { updateErrors i with logLines := (updateErrors i).logLines ++ getlines (updateErrors i).log } else updateErrors i).outStrOn = true then
      { (if (updateErrors i).logStrOn = true then { updateErrors i with logLines := (updateErrors i).logLines ++ getlines (updateErrors i).log } else updateErrors i) with
        outLines := (if (updateErrors i).logStrOn = true then { updateErrors i with logLines := (updateErrors i).logLines ++ getlines (updateErrors i).log } else updateErrors i).outLines ++ getlines (if (updateErrors i).logStrOn = true then { updateErrors i with logLines := (updateErrors i).logLines ++ getlines (updateErrors i).log } else updateErrors i).out }
      else (if (updateErrors i).logStrOn = true then { updateErrors i with logLines := (updateErrors i).logLines ++ getlines (updateErrors i).log } else updateErrors i)).eng)
    (if (if (updateErrors i).logStrOn = true then { updateErrors i with logLines := (updateErrors i).logLines ++ getlines (updateErrors i).log } else updateErrors i).outStrOn = true then
      { (if (updateErrors i).logStrOn = true then { updateErrors i with logLines := (updateErrors i).logLines ++ getlines (updateErrors i).log } else updateErrors i) with
        outLines := (if (updateErrors i).logStrOn = true then { updateErrors i with logLines := (updateErrors i).logLines ++ getlines (updateErrors i).log } else updateErrors i).outLines ++ getlines (if (updateErrors i).logStrOn = true then { updateErrors i with logLines := (updateErrors i).logLines ++ getlines (updateErrors i).log } else updateErrors i).out }
      else (if (updateErrors i).logStrOn = true then { updateErrors i with logLines := (updateErrors i).logLines ++ getlines (updateErrors i).log } else updateErrors i))
  rw [a1, a2, a3, a4, a5, a6, a7, a8, a9, a10]
  unfold updateErrors
  cases h1 : i.logStrOn <;> cases h2 : i.outStrOn <;> simp [h1, h2]

theorem selLines_fill {F E} (ks : List Int) (hn : ks.Nodup) (i : Inst F E) (n : Int) :
    ((ks.foldl fillSel i).selLines n).getD [] =
      (i.selLines n).getD [] ++ (if n ∈ ks ∧ switchedOn i i.cur then getlines ((i.strs n).getD []) else []) := by
  induction ks generalizing i with
  | nil => simp
  | cons k ks ih =>
    rw [List.nodup_cons] at hn
    simp only [List.foldl_cons]
    rw [ih hn.2]
    have hs := same_fillSel i k
    have hsw : switchedOn (fillSel i k) (fillSel i k).cur = switchedOn i i.cur := by
      unfold switchedOn; rw [hs.strOn, hs.cur]
    have hk1 : ((fillSel i k).selLines n).getD [] = (i.selLines n).getD [] ++
        (if n = k ∧ switchedOn i i.cur then getlines ((i.strs n).getD []) else []) := by
      unfold fillSel selStringOn switchedOn
      by_cases ho : (i.strOn i.cur).getD false = true
      · rw [if_pos ho]
        simp only [ho, and_true]
        by_cases hnk : n = k
        · subst hnk
          cases hst : i.strs n with
          | none => simp [getlines]
          | some s =>
            simp only [if_true, Option.getD_some]
            split_ifs with hg
            · simp [hg]
            · simp [put]
        · simp only [hnk, if_false, List.append_nil]
          cases hst : i.strs k with
          | none => rfl
          | some s =>
            simp only
            split_ifs with hg
            · rfl
            · simp [put, hnk]
      · rw [if_neg ho]; simp [ho]
    have hstr : (fillSel i k).strs = i.strs := (fillSel_keep [k] i).1
    rw [hk1, hsw, hstr]
    by_cases hnk : n = k
    · subst hnk; simp [hn.1]
    · simp [hnk]

theorem endRun_selLines {F E} (e : Engine F E) (i : Inst F E) (n : Int) :
    ((endRun e i).selLines n).getD [] =
      (i.selLines n).getD [] ++ (if n ∈ e.keys i.eng ∧ switchedOn i i.cur then getlines ((i.strs n).getD []) else []) := by
  unfold endRun
  simp only
  rw [selLines_fill _ (e.keys_nodup _)]
  unfold updateErrors switchedOn
  cases h1 : i.logStrOn <;> cases h2 : i.outStrOn <;> simp [h2]

/-- What a run with a database and a readable input does. -/
theorem runBody_ok {F E} (e : Engine F E) (r n : Text) (s : Text) (i j : Inst F E) (hdb : i.db = true)
    (h : runBody e r n (some s) i = some j) :
    ∃ k, applyEvs { clearResults i with errors := 0 } (e.run i.eng i.outStrOn s).evs = some k ∧
      j = updateErrors (if (e.run i.eng i.outStrOn s).stopped then
        { k with eng := (e.run i.eng i.outStrOn s).next, errors := (e.run i.eng i.outStrOn s).errors }
        else endRun e { k with eng := (e.run i.eng i.outStrOn s).next, errors := (e.run i.eng i.outStrOn s).errors }) := by
  unfold runBody at h
  simp only [Option.map_eq_some_iff] at h
  obtain ⟨k, h1, rfl⟩ := h
  have hd : (clearResults i).db = true := hdb
  rw [if_pos hd] at h1
  unfold doRun at h1
  simp only [Option.map_eq_some_iff] at h1
  obtain ⟨m, h2, rfl⟩ := h1
  exact ⟨m, h2, rfl⟩

theorem step_run {F E} (e : Engine F E) (fs : Text → Option Text) (i : Inst F E) (c : Call) (p : Inst F E × Int)
    (hc : isRun c = true) (h : step e fs i c = some p) :
    ∃ r n l b b' j, runBody e r n (inputOf fs i c) { i with lines := l, clearAcc := b } = some j ∧
      p = ({ j with clearAcc := b' }, j.errors) ∧ (r = txt "RunAccumulated" ∨ r = txt "RunString" ∨ r = txt "RunFile") := by
  cases c <;> simp only [isRun, Bool.false_eq_true] at hc
  case runAccumulated =>
    simp only [step, Option.map_eq_some_iff] at h
    obtain ⟨j, hj, rfl⟩ := h
    unfold runAccumulated at hj
    rw [Option.map_eq_some_iff] at hj
    obtain ⟨k, hk, rfl⟩ := hj
    exact ⟨_, _, i.lines, i.clearAcc, true, k, hk, rfl, .inl rfl⟩
  case runString s =>
    simp only [step, Option.map_eq_some_iff] at h
    obtain ⟨j, hj, rfl⟩ := h
    exact ⟨_, _, [], false, j.clearAcc, j, hj, rfl, .inr (.inl rfl)⟩
  case runFile s =>
    simp only [step, Option.map_eq_some_iff] at h
    obtain ⟨j, hj, rfl⟩ := h
    exact ⟨_, _, [], false, j.clearAcc, j, hj, rfl, .inr (.inr rfl)⟩

theorem runBody_lines {F E} (e : Engine F E) (r n : Text) (inp : Option Text) (i j : Inst F E)
    (h : runBody e r n inp i = some j) : j.errLines = getlines j.err ∧ j.warnLines = getlines j.warn := by
  unfold runBody at h
  simp only [Option.map_eq_some_iff] at h
  obtain ⟨k, _, rfl⟩ := h
  exact ⟨rfl, rfl⟩

/-! ### Independence of earlier results -/

/-- Forgetting the stored lines. -/
def er {F E} (i : Inst F E) : Inst F E := { i with errLines := [], warnLines := [] }

theorem er_outputMsg {F E} (i : Inst F E) (s : Text) : outputMsg (er i) s = er (outputMsg i s) := by
  unfold outputMsg er; simp only; split_ifs <;> rfl

theorem er_logMsg {F E} (i : Inst F E) (s : Text) : logMsg (er i) s = er (logMsg i s) := by
  unfold logMsg er; simp only; split_ifs <;> rfl

theorem er_errorMsg {F E} (i : Inst F E) (s : Text) : errorMsg (er i) s = er (errorMsg i s) := by
  unfold errorMsg addError er; simp only; split_ifs <;> rfl

theorem er_warningMsg {F E} (i : Inst F E) (s : Text) : warningMsg (er i) s = er (warningMsg i s) := by
  unfold warningMsg; rw [er_logMsg, er_outputMsg]; rfl

theorem er_punchText {F E} (i : Inst F E) (n : Int) (s : Text) : punchText (er i) n s = er (punchText i n s) := by
  unfold punchText selStringOn er; simp only; split_ifs <;> rfl

theorem er_addBlock {F E} (i : Inst F E) (k : Int) : addBlock (er i) k = er (addBlock i k) := by
  unfold addBlock er
  simp only
  cases i.tabs k <;> rfl

theorem er_fillSel {F E} (i : Inst F E) (k : Int) : fillSel (er i) k = er (fillSel i k) := by
  unfold fillSel selStringOn er
  simp only
  split_ifs
  · cases i.strs k with
    | none => rfl
    | some s => simp only; split_ifs <;> rfl
  · rfl

theorem er_foldl {F E β} (f : Inst F E → β → Inst F E) (hf : ∀ (i : Inst F E) (b : β), f (er i) b = er (f i b))
    (bs : List β) (i : Inst F E) : bs.foldl f (er i) = er (bs.foldl f i) := by
  induction bs generalizing i with
  | nil => rfl
  | cons b bs ih => rw [List.foldl_cons, hf, ih, List.foldl_cons]

theorem er_applyEv {F E} (i : Inst F E) (ev : Ev F) : applyEv (er i) ev = (applyEv i ev).map er := by
  cases ev with
  | blocks ks => simp only [applyEv, er_foldl _ er_addBlock, Option.map_some]
  | flags o l p => rfl
  | output s => simp only [applyEv, er_outputMsg, Option.map_some]
  | log s => simp only [applyEv, er_logMsg, Option.map_some]
  | error s => simp only [applyEv, er_errorMsg, Option.map_some]
  | warning s => simp only [applyEv, er_warningMsg, Option.map_some]
  | punchMsg n s => simp only [applyEv, er_punchText, Option.map_some]
  | punch n s k v =>
    simp only [applyEv, er_punchText]
    have : (er (punchText i n s)).tabs = (punchText i n s).tabs := rfl
    rw [this]
    cases (punchText i n s).tabs n with
    | none => rfl
    | some t => simp only [Option.map_map]; rfl
  | endRow n m =>
    simp only [applyEv]
    have : (er i).tabs = i.tabs := rfl
    rw [this]
    cases i.tabs n with
    | none => rfl
    | some t => simp only [Option.map_map]; rfl

theorem er_applyEvs {F E} (evs : List (Ev F)) (i : Inst F E) : applyEvs (er i) evs = (applyEvs i evs).map er := by
  induction evs generalizing i with
  | nil => rfl
  | cons ev evs ih =>
    simp only [applyEvs, er_applyEv]
    cases applyEv i ev with
    | none => rfl
    | some j => simp only [Option.map_some, Option.bind_some]; exact ih j

theorem er_endRun {F E} (e : Engine F E) (i : Inst F E) : endRun e (er i) = endRun e i := rfl

theorem er_doRun {F E} (e : Engine F E) (i : Inst F E) (s : Text) :
    (doRun e (er i) s).map updateErrors = (doRun e i s).map updateErrors := by
  unfold doRun
  simp only [er_applyEvs, Option.map_map]
  have h1 : (er i).eng = i.eng := rfl
  have h2 : (er i).outStrOn = i.outStrOn := rfl
  rw [h1, h2]
  congr 1
  funext j
  simp only [Function.comp]
  split_ifs <;> rfl

theorem er_engineError {F E} (i : Inst F E) (s : Text) : updateErrors (engineError (er i) s) = updateErrors (engineError i s) := by
  unfold engineError
  simp only [er_outputMsg, er_logMsg, er_errorMsg]
  rfl

theorem er_runBody {F E} (e : Engine F E) (r n : Text) (inp : Option Text) (i : Inst F E) :
    runBody e r n inp (er i) = runBody e r n inp i := by
  by_cases hd : i.db = true
  · have e1 : ∀ (k : Inst F E), k.db = true → runBody e r n inp k = Option.map updateErrors
        (match inp with
        | none => some (engineError { clearResults k with errors := 0 } (r ++ txt ": Unable to open:\"" ++ n ++ txt "\"."))
        | some s => doRun e { clearResults k with errors := 0 } s) := by
      intro k hk
      unfold runBody
      simp only
      cases inp <;> exact congrArg (Option.map updateErrors) (if_pos (show (clearResults k).db = true from hk))
    rw [e1 _ hd, e1 (er i) hd]
    cases inp with
    | none => exact congrArg some (er_engineError { clearResults i with errors := 0 } _)
    | some s => exact er_doRun e { clearResults i with errors := 0 } s
  · have e1 : ∀ (k : Inst F E), ¬ k.db = true → runBody e r n inp k = Option.map updateErrors
        (some (engineError { clearResults k with errors := 1 } (r ++ txt ": No database is loaded"))) := by
      intro k hk
      unfold runBody
      simp only
      rw [if_neg (show ¬ (clearResults k).db = true from hk)]
    rw [e1 _ hd, e1 (er i) hd]
    exact congrArg some (er_engineError { clearResults i with errors := 1 } _)

theorem runBody_errors {F E} (e : Engine F E) (r n : Text) (inp : Option Text) (i : Inst F E) (x : Int) :
    runBody e r n inp { i with errors := x } = runBody e r n inp i := rfl

end Verif.IPq
