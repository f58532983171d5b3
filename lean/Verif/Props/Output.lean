import Verif.Lemmas.Output
/-
C90: the statistic variable file.  C91: text variables and incomplete requests.  C92: animation files.
C93: integers and arrays of several dimensions in animation files.  C94: the order of a run.
Specification: `Verif/Spec/Output.lean`.
-/
namespace Verif.Output
open Verif.CText Verif.Params
open Verif.Sbl (intText)

/-! ### C90 -/

/-- C90: for every list of valid requests and every run, the file has the requests in its head and then
one line for each step with step number, date, time and the value of each requested element at the end of
the step, in the order of the request. -/
theorem C90_file (vars : Text → Option Pub) (fmt : VType → Rat → Text) (ws : List Wanted) (h0 : ws ≠ [])
    (h : ∀ w ∈ ws, w.Ok vars) (ht : ∀ w ∈ ws, w.pub.type ≠ .string)
    (hl : ∀ w ∈ ws, w.name.length < 50 ∧ ' ' ∉ w.name ∧ PlainText w.elem) (steps : List (List Int × Mem)) :
    statRun vars fmt 1 ws.length (ws.map (·.name)) (ws.map (·.elem)) steps = .file (statText fmt ws steps) := by
  have e : ((ws.map (·.name)).zip (ws.map (·.elem))).take ws.length = pairsOf ws := by
    rw [List.zip_map', List.take_of_length_le (by simp)]; rfl
  have hn : ws.length ≠ 0 := by simpa using h0
  unfold statRun
  rw [if_neg (by simp [hn]), if_neg (by simp)]
  simp only [e]
  rw [checkStat_ok h (fun w hw => (hl w hw).1) fun w hw => (hl w hw).2.2]
  simp only
  rw [createStats_ok h (fun w hw => (hl w hw).1) (fun w hw => (hl w hw).2.1) ht fun w hw => (hl w hw).2.2]
  simp only
  rw [writeSteps_ok fmt ht]
  simp [statText, statHead, statHeader, pairsOf, List.flatMap_map]

/-- Two variables, the second with two dimensions. -/
def demoVars (k : Text) : Option Pub :=
  if k = "a".toList then some ⟨k, .float, [⟨"n".toList, 3⟩]⟩
  else if k = "b".toList then some ⟨k, .long, [⟨"n".toList, 3⟩, ⟨"m".toList, 2⟩]⟩
  else none

example : statRun demoVars (fun _ x => intText x.num) 1 2 ["a.mod".toList, "b".toList] ["2".toList, "3,2".toList]
    [([1, 2000, 10, 1, 0, 0, 0], fun n o => if n = "a".toList then o else 10 + o)] =
      .file "2\na.mod 2\nb 3,2\n1 2000 10 1 0 0 0 1 15 \n".toList := by decide +kernel

example : Wanted.Ok demoVars ⟨"b".toList, "3,2".toList, ⟨"b".toList, .long, [⟨"n".toList, 3⟩, ⟨"m".toList, 2⟩]⟩, [3, 2]⟩ := by
  refine ⟨⟨"b".toList, ⟨by decide, Or.inl rfl⟩, by decide +kernel⟩, ⟨["3".toList, "2".toList], by simp, by decide +kernel,
    by decide +kernel, by decide +kernel⟩, rfl, ?_⟩
  intro k i d hi hd
  match k with
  | 0 => simp [Pub.shape] at hi hd; omega
  | 1 => simp [Pub.shape] at hi hd; omega
  | k + 2 => simp at hi

/-- C90: splitting a line at blanks gives its fields back (if no number is written with a blank). -/
theorem C90_columns (fields : List Text) (h : ∀ f ∈ fields, ' ' ∉ f) :
    splitBy (· = ' ') (blankLine fields) = fields ++ [['\n']] := by
  induction fields with
  | nil => decide
  | cons f fs ih =>
    have e : blankLine (f :: fs) = f ++ ' ' :: blankLine fs := by simp [blankLine]
    rw [e, splitBy_word_sep (fun c hc => by simp; rintro rfl; exact h f (by simp) hc) (by simp),
      ih fun f hf => h f (by simp [hf])]
    rfl

example : (∀ f ∈ ["1".toList, "2000".toList], ' ' ∉ f) ∧ blankLine ["1".toList, "2000".toList] = "1 2000 \n".toList := by
  decide +kernel

/-- C90: if a requested variable is not declared or an index is not valid, the run is refused before any
output; if all are valid it is not refused. -/
theorem C90_refused (vars : Text → Option Pub) (fmt : VType → Rat → Text) (names elems : List Text)
    (he : names.length = elems.length) (h0 : names ≠ [])
    (hl : ∀ p ∈ names.zip elems, p.1.length < 80 ∧ PlainText p.2) (steps : List (List Int × Mem)) :
    statRun vars fmt 1 names.length names elems steps = .refused ↔
      ¬ ∀ p ∈ names.zip elems, ∃ key v idx, Names p.1 key ∧ vars key = some v ∧ IndexText p.2 idx ∧ ValidIndices v.shape idx := by
  have e : (names.zip elems).take names.length = names.zip elems := List.take_of_length_le (by simp)
  have hn : names.length ≠ 0 := by simpa using h0
  obtain ⟨b, hb, hiff⟩ := checkStat_total vars (names.zip elems) hl
  rw [← hiff]
  unfold statRun
  rw [if_neg (by simp [hn]), if_neg (by simp [he])]
  simp only [e, hb]
  cases b with
  | false => simp
  | true =>
    simp only [not_true_eq_false, iff_false]
    cases createStats vars (names.zip elems) with
    | none => simp
    | some slots =>
      simp only
      cases writeSteps fmt slots steps <;> simp

example : statRun demoVars (fun _ x => intText x.num) 1 1 ["c".toList] ["1".toList] [] = .refused ∧
    statRun demoVars (fun _ x => intText x.num) 1 1 ["a".toList] ["4".toList] [] = .refused := by decide +kernel

/-- C90: without `statsON_OFF` 1, or with no variables, there is no file. -/
theorem C90_off (vars : Text → Option Pub) (fmt : VType → Rat → Text) (onOff : Int) (n : Nat) (names elems : List Text)
    (steps : List (List Int × Mem)) : statRun vars fmt onOff n names elems steps = .off ↔ onOff ≠ 1 ∨ n = 0 := by
  unfold statRun
  constructor
  · intro h
    by_contra hc
    rw [if_neg hc] at h
    revert h
    simp only
    split
    · simp
    · split
      · simp
      · simp
      · split
        · simp
        · split <;> simp
  · intro h; rw [if_pos h]

example : statRun demoVars (fun _ x => intText x.num) 0 1 ["a".toList] ["1".toList] [] = .off := by decide +kernel

/-! ### C91 -/

/-- C91: a text variable passes the check but has no column, so the values after it move to the left. -/
theorem C91_text_violated : ∃ (vars : Text → Option Pub) (fmt : VType → Rat → Text) (mem : Mem),
    statRun vars fmt 1 2 ["s".toList, "a".toList] ["1".toList, "1".toList] [([1], mem)] =
      .file "2\ns 1\na 1\n1 7 \n".toList := by
  refine ⟨fun k => some ⟨k, if k = "s".toList then .string else .float, [⟨"n".toList, 1⟩]⟩, fun _ x => intText x.num,
    fun _ _ => 7, ?_⟩
  decide +kernel

/-- C91: if the control file gives fewer names or elements than `nstatVars`, memory after the array is
read. -/
theorem C91_short_violated (vars : Text → Option Pub) (fmt : VType → Rat → Text) (n : Nat) (names elems : List Text)
    (steps : List (List Int × Mem)) (h0 : n ≠ 0) (h : names.length < n ∨ elems.length < n) :
    statRun vars fmt 1 n names elems steps = .ub := by
  unfold statRun
  rw [if_neg (by simp [h0]), if_pos h]

example : ["a".toList].length < 2 ∨ ["1".toList].length < 2 := by decide

/-- C91: a valid request is read past its buffer if the name (with its module) has 50 characters or more. -/
theorem C91_long_violated (vars : Text → Option Pub) (fmt : VType → Rat → Text) (w : Wanted) (h : w.Ok vars)
    (hl : 50 ≤ w.name.length) (steps : List (List Int × Mem)) (hp : PlainText w.elem) :
    statRun vars fmt 1 1 [w.name] [w.elem] steps = .ub := by
  unfold statRun
  rw [if_neg (by simp), if_neg (by simp)]
  simp only [List.zip_cons_cons, List.zip_nil_left, List.take_succ_cons, List.take_nil]
  by_cases h80 : 80 ≤ w.name.length
  · simp [checkStat, h80]
  · obtain ⟨b, hb, hiff⟩ := checkStat_total vars [(w.name, w.elem)] (by
      intro p hp'; rw [List.mem_singleton.1 hp']; exact ⟨by simpa using h80, hp⟩)
    have : b = true := hiff.2 (by
      intro p hp'
      rw [List.mem_singleton.1 hp']
      obtain ⟨⟨key, hn, hv⟩, hi, hva⟩ := h
      exact ⟨key, w.pub, w.idx, hn, hv, hi, hva⟩)
    rw [hb, this]
    simp [createStats, hl]

example : 50 ≤ ("a.".toList ++ List.replicate 50 'x').length := by decide

/-! ### C92 -/

/-- C92: for every request of real variables and every run there is one file for each first dimension of
a requested variable; it names the requested variables of this dimension in the order of the request and
has, for each step and each element, one line with time, number of the element and their values. -/
theorem C92_files (vars : Text → Option Pub) (fmt : VType → Rat → Text) (num : Nat → Text) (names : List Text) (vs : List Pub)
    (h : Requested vars names vs) (h0 : names ≠ []) (hd : ∀ v ∈ vs, v.dims ≠ [])
    (ht : ∀ v ∈ vs, v.type = .float ∨ v.type = .double) (steps : List (Text × Mem)) :
    ∃ files, aniRun vars fmt num 1 names.length names steps = .file files ∧ AniFiles fmt num vs steps files := by
  obtain ⟨vs', m1, m2, m3⟩ := mapM_withDim hd
  have hn : names.length ≠ 0 := by simpa using h0
  have ht' : ∀ v ∈ vs', v.1.type = .float ∨ v.1.type = .double := by
    intro v hv; apply ht; rw [← m2]; exact List.mem_map.2 ⟨v, hv, rfl⟩
  have hs : ∀ v ∈ vs', v.1.type ≠ .string := by
    intro v hv e; rcases ht' v hv with h | h <;> rw [h] at e <;> simp at e
  have hl : ∀ i d, (aniDims vs')[i]? = some d → LongOk vs' i d := by
    intro i d _ v hv _ e
    rcases ht' v hv with h | h <;> rw [h] at e <;> simp at e
  have hf := files_ok fmt num m3 hs hl steps
  rw [m2] at hf
  refine ⟨_, ?_, hf⟩
  unfold aniRun
  rw [if_neg (by simp [hn]), if_neg (by simp), List.take_length, requested_vars h]
  simp only [m1]

/-- Three variables, of two dimensions. -/
def demoAni (k : Text) : Option Pub :=
  if k = "a".toList then some ⟨k, .float, [⟨"n".toList, 2⟩]⟩
  else if k = "b".toList then some ⟨k, .double, [⟨"m".toList, 1⟩]⟩
  else if k = "c".toList then some ⟨k, .long, [⟨"m".toList, 1⟩]⟩
  else if k = "e".toList then some ⟨k, .float, [⟨"n".toList, 2⟩]⟩
  else none

example : Requested demoAni ["a.x".toList, "b".toList]
    [⟨"a".toList, .float, [⟨"n".toList, 2⟩]⟩, ⟨"b".toList, .double, [⟨"m".toList, 1⟩]⟩] := by
  refine .cons (key := "a".toList) ⟨by decide, Or.inr ⟨"x".toList, by decide⟩⟩ (by decide +kernel) (by decide) ?_
  exact .cons (key := "b".toList) ⟨by decide, Or.inl rfl⟩ (by decide +kernel) (by decide) .nil

example : aniText (fun _ x => intText x.num) decimal ⟨"n".toList, 2⟩ [⟨"a".toList, .float, [⟨"n".toList, 2⟩]⟩]
    [("t".toList, fun _ j => 5 + j)] =
    ("#\n# Begin DBF\n# timestamp,#FIELD_ISODATETIME,19,0\n# n,#FIELD_DECIMAL,10,2\n# a,#FIELD_DECIMAL,10,2\n# End DBF\n#\n" ++
      "timestamp\tn\ta\n19d\t10n\t10n\nt\t1\t5\nt\t2\t6\n").toList := by decide +kernel

/-- C92: splitting a line at tabs gives its fields back (if no field has a tab): each line has as many
columns as the line of names. -/
theorem C92_columns (f : Text) (fields : List Text) (h : ∀ g : Text, g ∈ f :: fields → '\t' ∉ g) :
    ∃ last, f :: fields = (f :: fields).dropLast ++ [last] ∧
      splitBy (· = '\t') (tabLine (f :: fields)) = (f :: fields).dropLast ++ [last ++ ['\n']] := by
  have hw : ∀ g : Text, '\t' ∉ g → ∀ c ∈ g, decide (c = '\t') = false := by
    intro g hg c hc; simp; rintro rfl; exact hg hc
  induction fields generalizing f with
  | nil =>
    refine ⟨f, rfl, ?_⟩
    have : tabLine [f] = f ++ ['\n'] := by simp [tabLine]
    rw [this, splitBy_word]
    · rfl
    · intro c hc
      rcases List.mem_append.1 hc with hc | hc
      · exact hw f (h f (by simp)) c hc
      · rw [List.mem_singleton.1 hc]; decide
  | cons g fs ih =>
    obtain ⟨last, h1, h2⟩ := ih g fun x hx => h x (by simp at hx ⊢; tauto)
    refine ⟨last, ?_, ?_⟩
    · rw [List.dropLast_cons₂, List.cons_append, ← h1]
    · have e : tabLine (f :: g :: fs) = f ++ '\t' :: tabLine (g :: fs) := by simp [tabLine]
      rw [e, splitBy_word_sep (hw f (h f (by simp))) (by simp), h2]
      rfl

example : (∀ g ∈ ["t".toList, "1".toList, "5".toList], ¬ '\t' ∈ g) ∧
    splitBy (· = '\t') (tabLine ["t".toList, "1".toList, "5".toList]) = ["t".toList, "1".toList, "5\n".toList] := by
  decide +kernel

/-- C92: an unknown variable is refused before any file is opened. -/
theorem C92_refused (vars : Text → Option Pub) (fmt : VType → Rat → Text) (num : Nat → Text) (names : List Text)
    (hl : ∀ n ∈ names, n.length < 80) (n key : Text) (hn : n ∈ names) (hk : Names n key) (hv : vars key = none)
    (steps : List (Text × Mem)) : aniRun vars fmt num 1 names.length names steps = .refused := by
  have key' : aniVars vars names = some none := by
    clear steps
    have tot : ∀ l : List Text, (∀ n ∈ l, n.length < 80) → ∃ o, aniVars vars l = some o := by
      intro l
      induction l with
      | nil => intro _; exact ⟨_, rfl⟩
      | cons a l ih =>
        intro hl
        obtain ⟨o, ho⟩ := ih fun n hn => hl n (by simp [hn])
        have := hl a (by simp)
        rw [aniVars, if_neg (by omega), ho]
        exact ⟨_, rfl⟩
    induction names with
    | nil => simp at hn
    | cons a l ih =>
      have ha := hl a (by simp)
      have hl' := fun n hn => hl n (List.mem_cons_of_mem a hn)
      rw [aniVars, if_neg (by omega)]
      rcases List.mem_cons.1 hn with rfl | hn
      · obtain ⟨o, ho⟩ := tot l hl'
        rw [ho, keyOf_names hk, hv]
      · rw [ih hl' hn]
        cases vars (keyOf a) <;> rfl
  have h0 : names.length ≠ 0 := by
    intro e; rw [List.length_eq_zero_iff.1 e] at hn; simp at hn
  unfold aniRun
  rw [if_neg (by simp [h0]), if_neg (by simp), List.take_length, key']

example : Names "x.y".toList "x".toList ∧ demoAni "x".toList = none ∧
    aniRun demoAni (fun _ x => intText x.num) decimal 1 2 ["a".toList, "x.y".toList] [] = .refused :=
  ⟨⟨by decide, Or.inr ⟨"y".toList, by decide⟩⟩, by decide +kernel, by decide +kernel⟩

/-! ### C93 -/

/-- C93: with integers the files are right if the first variables of the request have different
dimensions and the following ones repeat these. -/
theorem C93_integers_partial (vars : Text → Option Pub) (fmt : VType → Rat → Text) (num : Nat → Text) (names : List Text)
    (a b : List Pub) (h : Requested vars names (a ++ b)) (h0 : names ≠ []) (hd : ∀ v ∈ a ++ b, v.dims ≠ [])
    (ht : ∀ v ∈ a ++ b, v.type ≠ .string) (ha : (a.map (·.dims.head?)).Nodup)
    (hb : ∀ v ∈ b, v.dims.head? ∈ a.map (·.dims.head?)) (steps : List (Text × Mem)) :
    ∃ files, aniRun vars fmt num 1 names.length names steps = .file files ∧ AniFiles fmt num (a ++ b) steps files := by
  obtain ⟨a', m1, m2, m3⟩ := mapM_withDim (vs := a) fun v hv => hd v (by simp [hv])
  obtain ⟨b', n1, n2, n3⟩ := mapM_withDim (vs := b) fun v hv => hd v (by simp [hv])
  have hn : names.length ≠ 0 := by simpa using h0
  have e1 : (a ++ b).mapM withDim = some (a' ++ b') := by simp [List.mapM_append, m1, n1]
  have e2 : (a' ++ b').map (·.1) = a ++ b := by simp [m2, n2]
  have e3 : ∀ v ∈ a' ++ b', v.1.dims.head? = some v.2 := by
    intro v hv
    rcases List.mem_append.1 hv with hv | hv
    exacts [m3 v hv, n3 v hv]
  have ea : a.map (·.dims.head?) = (a'.map (·.2)).map some := by
    rw [← m2, List.map_map, List.map_map]
    exact List.map_congr_left fun v hv => m3 v hv
  have hdims : aniDims (a' ++ b') = a'.map (·.2) := by
    apply aniDims_first
    · rw [ea] at ha; exact ha.of_map _
    · intro v hv
      have := hb v.1 (by rw [← n2]; exact List.mem_map.2 ⟨v, hv, rfl⟩)
      rw [ea, n3 v hv] at this
      simpa using this
  have hs : ∀ v ∈ a' ++ b', v.1.type ≠ .string := by
    intro v hv; apply ht; rw [← e2]; exact List.mem_map.2 ⟨v, hv, rfl⟩
  have hl : ∀ i d, (aniDims (a' ++ b'))[i]? = some d → LongOk (a' ++ b') i d := by
    intro i d hi v _ _ _
    rw [hdims, List.getElem?_map] at hi
    have hlt : i < a'.length := by
      by_contra hc
      rw [List.getElem?_eq_none (by omega)] at hi; simp at hi
    rw [List.getElem?_append_left hlt]
    exact hi
  have hf := files_ok fmt num e3 hs hl steps
  rw [e2] at hf
  refine ⟨_, ?_, hf⟩
  unfold aniRun
  rw [if_neg (by simp [hn]), if_neg (by simp), List.take_length, requested_vars h]
  simp only [e1]

example : ([⟨"c".toList, .long, [⟨"m".toList, 1⟩]⟩, ⟨"a".toList, .float, [⟨"n".toList, 2⟩]⟩].map
    fun v : Pub => v.dims.head?).Nodup := by decide +kernel

/-- C93: in general an integer is written to the file of the variable whose number is that of the
dimension: here the value 7 of `c`, a variable of dimension `m`, is written to the file of dimension `n`, and
the line of `c` has no value. -/
theorem C93_integers_violated : ∃ (vars : Text → Option Pub) (fmt : VType → Rat → Text) (steps : List (Text × Mem)),
    Requested vars ["a".toList, "e".toList, "c".toList] [⟨"a".toList, .float, [⟨"n".toList, 2⟩]⟩,
      ⟨"e".toList, .float, [⟨"n".toList, 2⟩]⟩, ⟨"c".toList, .long, [⟨"m".toList, 1⟩]⟩] ∧
    ∃ u v, aniRun vars fmt decimal 1 3 ["a".toList, "e".toList, "c".toList] steps = .file [(⟨"n".toList, 2⟩, u), (⟨"m".toList, 1⟩, v)] ∧
      ("t\t1\t5\t5\nt\t2\t5\t5\n\t7".toList).isSuffixOf u = true ∧
      ("timestamp\tm\tc\n19d\t10n\t10n\nt\t1\n".toList).isSuffixOf v = true := by
  refine ⟨demoAni, fun _ x => intText x.num, [("t".toList, fun n _ => if n = "c".toList then 7 else 5)], ?_, ?_⟩
  · refine .cons (key := "a".toList) ⟨by decide, Or.inl rfl⟩ (by decide +kernel) (by decide) ?_
    refine .cons (key := "e".toList) ⟨by decide, Or.inl rfl⟩ (by decide +kernel) (by decide) ?_
    exact .cons (key := "c".toList) ⟨by decide, Or.inl rfl⟩ (by decide +kernel) (by decide) .nil
  · refine ⟨_, _, rfl, ?_, ?_⟩ <;> decide +kernel

/-- C93: of an array with several dimensions only the first row is written: the files are the same for
any values of the other elements. -/
theorem C93_arrays_violated (vars : Text → Option Pub) (fmt : VType → Rat → Text) (num : Nat → Text) (onOff : Int) (n : Nat)
    (names : List Text) (steps : List (Text × Mem × Mem))
    (h : ∀ s ∈ steps, ∀ key v, vars key = some v → ∀ d, v.dims.head? = some d → ∀ j : Nat, j < d.value →
      s.2.1 v.name j = s.2.2 v.name j) :
    aniRun vars fmt num onOff n names (steps.map fun s => (s.1, s.2.1)) =
      aniRun vars fmt num onOff n names (steps.map fun s => (s.1, s.2.2)) := by
  unfold aniRun
  split
  · rfl
  split
  · rfl
  cases hv : aniVars vars (names.take n) with
  | none => rfl
  | some o =>
    cases o with
    | none => rfl
    | some vs =>
      simp only
      cases hm : vs.mapM withDim with
      | none => rfl
      | some vs' =>
        simp only
        rw [steps_congr fmt num (aniDims vs') vs' steps]
        intro s hs v hv' j hj
        obtain ⟨hv1, hv2⟩ := mapM_withDim_mem hm v hv'
        obtain ⟨key, hk⟩ := aniVars_mem hv v.1 hv1
        exact h s hs key v.1 hk v.2 hv2 j hj

/-- The second row of `b` is not written. -/
example : aniRun demoVars (fun _ x => intText x.num) decimal 1 1 ["b".toList] [("t".toList, fun _ j => j)] =
    aniRun demoVars (fun _ x => intText x.num) decimal 1 1 ["b".toList] [("t".toList, fun _ j => if j < 3 then j else 99)] :=
  C93_arrays_violated demoVars (fun _ x => intText x.num) decimal 1 1 ["b".toList]
    [("t".toList, fun _ j => j, fun _ j => if j < 3 then j else 99)] (by
      intro s hs key v hk d hd j hj
      rw [List.mem_singleton.1 hs]
      have : j < 3 := by
        unfold demoVars at hk
        split at hk
        · obtain rfl := Option.some.inj hk; simp at hd; subst hd; exact hj
        · split at hk
          · obtain rfl := Option.some.inj hk; simp at hd; subst hd; exact hj
          · simp at hk
      simp [this])

/-! ### C94 -/

/-- C94: a run in which everything succeeds: files are opened, modules initialized, the state is restored
if asked for, each step adds its line, modules are cleaned up, files closed, and the state is saved if
asked for and if there was a step. -/
theorem C94_complete (p : Parts) (h1 : p.pre = true) (h2 : p.init = true) (h3 : ∀ b ∈ p.steps, b = true)
    (h4 : p.cleanup = true) :
    batch p = [.opened, .initialized] ++ (if p.restore then [.restored] else []) ++ List.replicate p.steps.length .lines ++
      [.cleaned, .closed] ++ (if p.save ∧ p.steps ≠ [] then [.saved] else []) := by
  have e1 : (mainLoop p.steps).1 = List.replicate p.steps.length .lines := by
    rw [mainLoop_fst, takeWhile_all (p := id) h3]
  have e2 : (mainLoop p.steps).2 = true := (mainLoop_snd _).2 h3
  simp only [batch, h1, h2, h4, e1, e2, postCleanup]
  cases p.restore <;> cases p.save <;> by_cases e : p.steps = [] <;> simp [e]

example : batch ⟨true, true, [true, true], true, false, true⟩ = [.opened, .initialized, .lines, .lines, .cleaned, .closed, .saved] := by
  decide

/-- C94: the output files get one line for each step before the first failing one. -/
theorem C94_lines (p : Parts) (h : p.pre = true) (hi : p.init = true) :
    (batch p).count .lines = (p.steps.takeWhile id).length := by
  simp only [batch, h, hi, postCleanup]
  have e : (mainLoop p.steps).1.count .lines = (p.steps.takeWhile id).length := by
    rw [mainLoop_fst]; simp
  cases p.restore <;> cases p.save <;> cases p.cleanup <;> cases (mainLoop p.steps).2 <;> by_cases e' : p.steps = [] <;>
    simp [e, e', mainLoop, List.count_cons]

example : (batch ⟨true, true, [true, true, false, true], true, false, true⟩).count .lines = 2 := by decide

/-- C94: the state is saved exactly at the end of a run in which everything succeeded and there was at
least one step, if saving was asked for. -/
theorem C94_saved (p : Parts) : Event.saved ∈ batch p ↔
    p.pre = true ∧ p.init = true ∧ (∀ b ∈ p.steps, b = true) ∧ p.steps ≠ [] ∧ p.cleanup = true ∧ p.save = true := by
  rw [← mainLoop_snd]
  have e : Event.saved ∉ (mainLoop p.steps).1 := by
    rw [mainLoop_fst]; simp
  simp only [batch, postCleanup]
  cases p.pre <;> cases p.init <;> cases p.restore <;> cases p.save <;> cases p.cleanup <;> cases (mainLoop p.steps).2 <;>
    by_cases e' : p.steps = [] <;> simp [e, e', mainLoop]

example : Event.saved ∈ batch ⟨true, true, [true], true, false, true⟩ ∧ Event.saved ∉ batch ⟨true, true, [], true, false, true⟩ := by
  decide

/-- C94: a run that fails: nothing happens after refused output, after failed initialization nothing
but the opening of files, and a failing step is the end, without its line, without cleaning up, closing or
saving. -/
theorem C94_failed (p : Parts) :
    (p.pre = false → batch p = []) ∧
    (p.pre = true → p.init = false → batch p = [.opened]) ∧
    (∀ k r, p.pre = true → p.init = true → p.steps = List.replicate k true ++ false :: r →
      batch p = [.opened, .initialized] ++ (if p.restore then [.restored] else []) ++ List.replicate k .lines) := by
  refine ⟨fun h => by simp [batch, h], fun h1 h2 => by simp [batch, h1, h2], ?_⟩
  intro k r h1 h2 hs
  have e1 : (mainLoop p.steps).1 = List.replicate k .lines := by
    rw [hs]; clear * -
    induction k with
    | zero => rfl
    | succ k ih => simp [List.replicate_succ, mainLoop] at ih ⊢; exact ih
  have e2 : (mainLoop p.steps).2 = false := by
    rw [hs]; clear * -
    induction k with
    | zero => rfl
    | succ k ih => simp [List.replicate_succ, mainLoop] at ih ⊢; exact ih
  simp [batch, h1, h2, e1, e2]

example : batch ⟨true, true, [true, false, true], true, true, true⟩ = [.opened, .initialized, .restored, .lines] := by
  decide

end Verif.Output
