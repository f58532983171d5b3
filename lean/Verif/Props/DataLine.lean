import Verif.Lemmas.DataFile
import Verif.Props.TimeLoop
/-
C48, C64–C67: data files, from the text to the variables of the modules.
-/
namespace Verif.DataLine
open Verif.CText
open Verif.ParFile (Ty)

/-! ### C48: well-formed data files -/

/-- C48: the header of a well-formed file declares exactly the listed columns, in order, with the types of the declared
variables; comments and blank lines do not count. -/
theorem C48_header {V} {vars : List (Var V)} (hn : (vars.map (·.key)).Nodup) {info mark : List Char} {hs : List HLine}
    {rs : List Rec} (hi : '\n' ∉ info) (hil : info.length + 2 ≤ 80) (hm : '\n' ∉ mark) (hml : mark.length + 6 ≤ 2048)
    (hh : ∀ h ∈ hs, h.Ok vars) (hr : rs ≠ []) :
    readDatainfo vars (fileText info hs mark rs) = (columns vars hs, true) :=
  readDatainfo_file hn hi hil hm hml hh hr

/-- C48: the values of a line, separated by white space, one per column, arrive in the buffers of the columns, converted to
the types of the columns. -/
theorem C48_values {V} (cv : Conv V) (cols : List Col) (ws : List (List Char × Dec)) (r : List Char) (hs : Separated ws)
    (hf : Fit cv (types cols) (ws.map (·.2))) (hr : AfterWord r) :
    readValues cv cols (wordsText ws ++ r) = some (buffers cv cols (ws.map (·.2))) :=
  readValues_words cv cols ws r hs hf hr

/-- C48: value `k` of column entry `i` is the number with the index "sum of the counts before" + `k` on the line. -/
theorem C48_position {V} (cv : Conv V) (cols : List Col) (ds : List Dec) (i k : Nat) (c : Col) (d : Dec)
    (hf : Fit cv (types cols) ds) (hc : cols[i]? = some c) (hk : k < c.count)
    (hd : ds[((cols.take i).map (·.count)).sum + k]? = some d) :
    ((buffers cv cols ds)[i]?.bind fun b => b[k]?) = some (meaning cv c.type d) := by
  unfold buffers
  rw [chunks_get _ _ i k c.count (by simp [hc]) hk, ← List.map_take, List.getElem?_zipWith, hd]
  have ht : (types cols)[((cols.take i).map (·.count)).sum + k]? = some c.type := by
    clear hd hf
    induction cols generalizing i with
    | nil => simp at hc
    | cons a cols ih =>
      rw [types_cons]
      cases i with
      | zero =>
        simp only [List.getElem?_cons_zero, Option.some.injEq] at hc
        subst hc
        rw [List.getElem?_append_left (by simpa using hk)]
        simp [hk]
      | succ i =>
        simp only [List.getElem?_cons_succ] at hc
        rw [List.getElem?_append_right (by simp; omega)]
        have := ih i hc
        rw [← this]
        congr 1
        simp; omega
  rw [ht]

/-- C48: `readvar` stores the buffer of the column in the variable and in no other and returns 0. -/
theorem C48_readvar {V} {cols : List Col} {bufs : List (List V)} {vars : List (Var V)} {i : Nat} {c : Col} {b : List V} {v : Var V}
    (hv : (vars.map (·.key)).Nodup) (hc : (cols.map (·.key)).Nodup) (hi : cols[i]? = some c) (hb : bufs[i]? = some b)
    (hm : v ∈ vars) (hk : v.key = c.key) (hs : v.size = c.count) (h0 : 0 < v.size) :
    readvar cols bufs vars c.key = (0, vars.map fun u => if u.key = c.key then { u with vals := b } else u) := by
  obtain ⟨u, h1, h2, h3⟩ := find_unique hv ⟨v, hm, hk⟩
  have huv : u = v := by
    have : v ∈ vars.filter fun v => v.key = c.key := List.mem_filter.2 ⟨hm, by simpa using hk⟩
    rw [h3] at this
    exact (List.mem_singleton.1 this).symm
  subst huv
  unfold readvar
  rw [h1]
  simp only [find_zip cols bufs i c b hc hi hb]
  rw [if_neg (by simpa using hs), if_neg (by omega), store_eq hv]

/-- C48: `readvar` for a variable that is not declared, not in the data file or of another size returns 1 and changes
nothing. -/
theorem C48_readvar_error {V} {cols : List Col} {bufs : List (List V)} {vars : List (Var V)} {name : List Char}
    (h : (∀ v ∈ vars, v.key ≠ name) ∨ (∀ c ∈ cols, c.key ≠ name) ∨
      (∀ v ∈ vars, v.key = name → ∀ c ∈ cols, c.key = name → v.size ≠ c.count)) :
    readvar cols bufs vars name = (1, vars) := by
  unfold readvar
  cases hf : vars.find? fun v => v.key = name with
  | none => rfl
  | some v =>
    have hv := List.mem_of_find?_eq_some hf
    have hk := List.find?_some hf
    simp only [decide_eq_true_eq] at hk
    simp only
    cases hg : (cols.zip bufs).find? fun c => c.1.key = name with
    | none => rfl
    | some x =>
      obtain ⟨c, b⟩ := x
      have hc := (List.of_mem_zip (List.mem_of_find?_eq_some hg)).1
      have hck := List.find?_some hg
      simp only [decide_eq_true_eq] at hck
      simp only
      rw [if_pos]
      rcases h with h | h | h
      · exact absurd hk (h v hv)
      · exact absurd hck (h c hc)
      · exact h v hv hk c hc hck

/-- C48, the whole way from the text of a data file to the time steps: if the file is well-formed and its records hold existing
times in chronological order, the run makes one time step of every record inside the window, in order, and the modules
find the values written on that record's line in the buffers of the columns. -/
theorem C48_run {V} (cv : Conv V) {vars : List (Var V)} (hn : (vars.map (·.key)).Nodup) (w : TimeLoop.Window)
    (now : TimeLoop.Time) {info mark : List Char} {hs : List HLine} {r : Rec} {rs : List Rec}
    (hi : '\n' ∉ info) (hil : info.length + 2 ≤ 80) (hie : info.take 4 ≠ ['#', '#', '#', '#'])
    (hm : '\n' ∉ mark) (hml : mark.length + 6 ≤ 2048) (hh : ∀ h ∈ hs, h.Ok vars)
    (hr : ∀ x ∈ r :: rs, x.Ok cv (columns vars hs) ∧ x.stamp.Valid)
    (hord : (r :: rs).Pairwise fun a b => a.stamp.Before b.stamp)
    (hw : w.start ≤ w.stop) (hd : TimeLoop.tick ≤ w.initialDeltat / 24) (hpos : w.initialDeltat / 24 ≤ r.stamp.time.jt)
    (hfirst : r.stamp.time.jd ≤ w.startJd) :
    ∃ steps, run cv vars w now [fileText info hs mark (r :: rs)] =
        some (steps, .code (if ∃ x ∈ r :: rs, w.stop < x.stamp.time.jt then 1 else 2)) ∧
      TimeLoop.Delivers steps (w.initialDeltat / 24)
        (((r :: rs).map fun x => (x.stamp.time, buffers cv (columns vars hs) (x.vals.map (·.2)))).filter
          (TimeLoop.inWindow w)) := by
  have hopen := openData_file (cv := cv) (cols := columns vars hs) hn (info := info) (mark := mark) (hs := hs) (r := r)
    (rs := rs) (t := r.stamp.time) (ts := rs.map fun x => x.stamp.time) hi (by omega) hie hm hml hh
    (fun x hx => (hr x hx).1) (julTime_time (hr r (by simp)).2) (by
      rw [List.map_map]
      apply List.map_congr_left
      intro x hx
      exact julTime_time (hr x (by simp [hx])).2)
  have hcols : readDataInfos vars [] [fileText info hs mark (r :: rs)] = columns vars hs := by
    simp only [readDataInfos, readDatainfo_file hn hi hil hm hml hh (List.cons_ne_nil r rs)]
  have hz : ((rs.map fun x => x.stamp.time).zip rs).map (fun x => TimeLoop.Item.record x.1 (wordsText x.2.vals ++ (x.2.tail ++ ['\n']))) =
      (rs.map fun x => (x.stamp.time, wordsText x.vals ++ (x.tail ++ ['\n']))).map (fun x => TimeLoop.Item.record x.1 x.2) ++ [] := by
    clear hopen hcols hord hr
    induction rs with
    | nil => rfl
    | cons a rs ih =>
      simp only [List.append_nil] at ih
      simp only [List.map_cons, List.zip_cons_cons, ih, List.append_nil]
  rw [hz] at hopen
  have hsteps := TimeLoop.C17_steps w now (r.stamp.time, wordsText r.vals ++ (r.tail ++ ['\n']))
    (rs.map fun x => (x.stamp.time, wordsText x.vals ++ (x.tail ++ ['\n']))) [] (by
      have : (r.stamp.time, wordsText r.vals ++ (r.tail ++ ['\n'])) ::
          (rs.map fun x => (x.stamp.time, wordsText x.vals ++ (x.tail ++ ['\n']))) =
          (r :: rs).map fun x => (x.stamp.time, wordsText x.vals ++ (x.tail ++ ['\n'])) := rfl
      rw [this]
      unfold TimeLoop.Ordered
      rw [List.pairwise_map]
      exact hord.imp_of_mem fun ha hb h => before_tick (hr _ ha).2 (hr _ hb).2 h) hw hd hpos hfirst (.inl rfl)
  obtain ⟨⟨h1, h2, h3⟩, h4⟩ := hsteps
  have hall : (r.stamp.time, wordsText r.vals ++ (r.tail ++ ['\n'])) ::
          (rs.map fun x => (x.stamp.time, wordsText x.vals ++ (x.tail ++ ['\n']))) =
          (r :: rs).map fun x => (x.stamp.time, wordsText x.vals ++ (x.tail ++ ['\n'])) := rfl
  rw [hall] at h1 h2 h3 h4
  rw [List.filter_map] at h1 h2 h3
  obtain ⟨ss, a, b, c, d⟩ := decode_steps cv (columns vars hs)
    (TimeLoop.batchRun w now [TimeLoop.openFile (r.stamp.time, wordsText r.vals ++ (r.tail ++ ['\n']))
      ((rs.map fun x => (x.stamp.time, wordsText x.vals ++ (x.tail ++ ['\n']))).map (fun x => TimeLoop.Item.record x.1 x.2) ++ [])]).2
    (fun x : Rec => x.stamp.time) (fun x => wordsText x.vals ++ (x.tail ++ ['\n']))
    (fun x => buffers cv (columns vars hs) (x.vals.map (·.2))) _ _ (by
      intro x hx
      have hx' := (hr x (List.mem_of_mem_filter hx)).1
      exact readValues_words cv _ _ _ hx'.2.2.2.2.1 hx'.2.2.2.2.2.1 (tail_after hx'.2.2.2.2.2.2.1)) h1
  refine ⟨ss, ?_, ?_⟩
  · unfold run openAll
    rw [hopen]
    simp only [openAll, Option.map_some, hcols]
    rw [Prod.mk.eta] at a
    rw [a, h4]
    simp
  · rw [List.filter_map]
    refine ⟨b, ?_, ?_⟩
    · rw [c, h2]; simp; rfl
    · rw [d]
      simp only [List.map_map] at h3 ⊢
      exact h3

/-! A concrete file. -/

/-- Exact conversion; values of magnitude 1000 and more are out of range (for the examples). -/
def exConv : Conv Rat := ⟨fun n => n, id, id, fun x => x ≥ 1000 || x ≤ -1000⟩

/-- Three declared variables. -/
def exVars : List (Var Rat) :=
  [⟨"runoff".toList, .float, 1, [0]⟩, ⟨"precip".toList, .double, 2, [0, 0]⟩, ⟨"code".toList, .long, 1, [0]⟩]

/-- A header: a comment, two columns of `precip`, a blank line, one column of `code`. -/
def exHead : List HLine :=
  [.comment " gauges".toList, .column [] "precip".toList " ".toList 2 [], .blank, .column " ".toList "code".toList "\t".toList 1 " (-)".toList]

/-- An integer word. -/
def exInt (s : List Char) : List Char × Dec := ([' '], { ip := s })

/-- 1999 12 31 0 0 0: 0.25, -1e1, 7. -/
def exRec1 : Rec :=
  ⟨([], { ip := "1999".toList }), exInt "12".toList, exInt "31".toList, exInt "0".toList, exInt "0".toList, exInt "00".toList,
    [([' '], { ip := "0".toList, fp := some "25".toList }), ([' '], { sign := ['-'], ip := "1".toList, ex := some ('e', [], ['1']) }),
      ([' ', '\t'], { sign := ['+'], ip := "7".toList })], ['\r']⟩

/-- 2000 1 1 0 0 0: 0, .5, 8. -/
def exRec2 : Rec :=
  ⟨([], { ip := "2000".toList }), exInt "1".toList, exInt "1".toList, exInt "0".toList, exInt "0".toList, exInt "0".toList,
    [([' '], { ip := "0".toList }), ([' '], { ip := [], fp := some ['5'] }), ([' '], { ip := "8".toList })], []⟩

/-- The hypotheses of `C48_header` and `C48_run` are met by a file with the records above. -/
example : (exVars.map (·.key)).Nodup ∧ (∀ h ∈ exHead, h.Ok exVars) ∧
    columns exVars exHead = [⟨"precip".toList, .double, 2⟩, ⟨"code".toList, .long, 1⟩] := by
  refine ⟨by decide, ?_, by decide⟩
  have d2 : decimal 2 = ['2'] := by rw [decimal]; decide
  have d1 : decimal 1 = ['1'] := by rw [decimal]; decide
  intro h hh
  simp only [exHead, List.mem_cons, List.not_mem_nil, or_false] at hh
  rcases hh with rfl | rfl | rfl | rfl
  · exact ⟨by decide, by decide, trivial⟩
  · refine ⟨?_, ?_, by decide, by decide, by decide, by decide, by decide, by decide, by decide, by decide, .inl rfl⟩
    · simp only [HLine.text, d2]; decide
    · simp only [HLine.text, d2]; decide
  · exact ⟨by decide, by decide, trivial⟩
  · refine ⟨?_, ?_, by decide, by decide, by decide, by decide, by decide, by decide, by decide, by decide,
      .inr ⟨' ', "(-)".toList, by decide, .inl rfl⟩⟩
    · simp only [HLine.text, d1]; decide
    · simp only [HLine.text, d1]; decide

instance {V} (cv : Conv V) (ty : Ty) (d : Dec) : Decidable (FitsType cv ty d) := by
  unfold FitsType; cases ty <;> infer_instance

instance (s : List Char) : Decidable (Blank s) := by unfold Blank; infer_instance

instance (ws : List (List Char × Dec)) : Decidable (Separated ws) := by unfold Separated; infer_instance

instance {V} (cv : Conv V) (tys : List Ty) (ds : List Dec) : Decidable (Fit cv tys ds) := by unfold Fit; infer_instance

instance {V} (cv : Conv V) (cols : List Col) (r : Rec) : Decidable (r.Ok cv cols) := by unfold Rec.Ok; infer_instance

instance (a b : Calendar.Date) : Decidable (Calendar.Before a b) := by unfold Calendar.Before; infer_instance

instance (a b : Stamp) : Decidable (a.Before b) := by unfold Stamp.Before; infer_instance

example : (∀ x ∈ [exRec1, exRec2], x.Ok exConv (columns exVars exHead) ∧ x.stamp.Valid) ∧
    ([exRec1, exRec2].Pairwise fun a b => a.stamp.Before b.stamp) ∧
    (24 : Rat) / 24 ≤ exRec1.stamp.time.jt ∧ exRec1.stamp.time.jd = 2451544 ∧
    buffers exConv (columns exVars exHead) (exRec1.vals.map (·.2)) = [[1/4, -10], [7]] := by
  decide +kernel

/-- The run of a file with these records, computed: one step per record, with the values of its line. -/
example : run exConv exVars ⟨2451544, 2451544, 2451600, 24⟩ ⟨0, 0⟩
    ["gauges A and B\n// comment\nprecip 2\n\n code\t1 (-)\n####\n1999 12 31 0 0 00 0.25 -1e1 \t+7\r\n2000 1 1 0 0 0 0 .5 8\n".toList] =
    some ([⟨1, ⟨2451544, 2451544⟩, 1, [[1/4, -10], [7]]⟩, ⟨2, ⟨2451545, 2451545⟩, 1, [[0, 1/2], [8]]⟩], .code 2) := by
  decide +kernel

/-- `readvar` then puts the values into the variable. -/
example : readvar (columns exVars exHead) [[(1/4 : Rat), -10], [7]] exVars "precip".toList =
    (0, [⟨"runoff".toList, .float, 1, [0]⟩, ⟨"precip".toList, .double, 2, [1/4, -10]⟩, ⟨"code".toList, .long, 1, [0]⟩]) ∧
    readvar (columns exVars exHead) [[(1/4 : Rat), -10], [7]] exVars "runoff".toList = (1, exVars) := by decide +kernel

/-! ### C64: times on data lines -/

/-- C64: a line that begins with six numbers, the first five whole numbers, the sixth with the integral part `sec`, is accepted
if all fields are in their ranges; the time is the one written and the values begin after the sixth number. -/
theorem C64_fields {y m d h mi s : List Char × Dec} {rest : List Char} {sec : Int}
    (hi : ∀ w ∈ [y, m, d, h, mi], w.2.Ok ∧ w.2.IsInt ∧ Blank w.1) (hs : s.2.Ok ∧ Blank s.1)
    (hne : ∀ w ∈ [m, d, h, mi, s], w.1 ≠ []) (hr : AfterWord rest)
    (h0 : 0 ≤ sec) (h1 : (sec : Rat) ≤ s.2.value) (h2 : s.2.value < sec + 1) (h3 : sec < 2 ^ 31)
    (hy : 1800 ≤ y.2.int ∧ y.2.int ≤ 2100) (hm : 1 ≤ m.2.int ∧ m.2.int ≤ 12) (hd : 1 ≤ d.2.int ∧ d.2.int ≤ 31)
    (hh : 0 ≤ h.2.int ∧ h.2.int ≤ 24) (hmi : 0 ≤ mi.2.int ∧ mi.2.int ≤ 59) :
    extractTime (wordsText [y, m, d, h, mi, s] ++ rest) =
      some (⟨y.2.int, m.2.int, d.2.int, h.2.int, mi.2.int, sec⟩, rest) := by
  have hsec : truncInt s.2.value = sec := by
    have hp : (0 : Rat) ≤ s.2.value := le_trans (by exact_mod_cast h0) h1
    have hq : s.2.value < 2 ^ 31 := by
      have : ((sec + 1 : Int) : Rat) ≤ ((2 ^ 31 : Int) : Rat) := by exact_mod_cast h3
      push_cast at this
      linarith
    rw [truncInt_floor hp hq]
    have h4 : s.2.value.floor ≤ sec := by
      have := (Rat.floor_lt_iff (a := s.2.value) (x := sec + 1)).2 (by push_cast; exact h2)
      omega
    have h5 : sec ≤ s.2.value.floor := Rat.le_floor_iff.2 h1
    omega
  rw [extract_words hi hs hne hr, hsec, if_pos]
  exact ⟨hy.1, hy.2, hm.1, hm.2, hd.1, hd.2, hh.1, hh.2, hmi.1, hmi.2, h0⟩

example : extractTime "2001 2 28 23 59 7.9 1.5\n".toList = some (⟨2001, 2, 28, 23, 59, 7⟩, " 1.5\n".toList) ∧
    wordsText [([], { ip := "2001".toList }), exInt "2".toList, exInt "28".toList, exInt "23".toList, exInt "59".toList,
      ([' '], { ip := ['7'], fp := some ['9'] })] = "2001 2 28 23 59 7.9".toList := by decide +kernel

/-- C64: a line with a year, month, day, hour or minute out of range is refused, whatever the other fields are. -/
theorem C64_reject {y m d h mi s : List Char × Dec} {rest : List Char}
    (hi : ∀ w ∈ [y, m, d, h, mi], w.2.Ok ∧ w.2.IsInt ∧ Blank w.1) (hs : s.2.Ok ∧ Blank s.1)
    (hne : ∀ w ∈ [m, d, h, mi, s], w.1 ≠ []) (hr : AfterWord rest)
    (hbad : ¬ (1800 ≤ y.2.int ∧ y.2.int ≤ 2100) ∨ ¬ (1 ≤ m.2.int ∧ m.2.int ≤ 12) ∨ ¬ (1 ≤ d.2.int ∧ d.2.int ≤ 31) ∨
      ¬ (0 ≤ h.2.int ∧ h.2.int ≤ 24) ∨ ¬ (0 ≤ mi.2.int ∧ mi.2.int ≤ 59) ∨ s.2.value ≤ -1) :
    extractTime (wordsText [y, m, d, h, mi, s] ++ rest) = none := by
  rw [extract_words hi hs hne hr, if_neg]
  rintro ⟨a1, a2, a3, a4, a5, a6, a7, a8, a9, a10, a11⟩
  rcases hbad with hb | hb | hb | hb | hb | hb
  · exact hb ⟨a1, a2⟩
  · exact hb ⟨a3, a4⟩
  · exact hb ⟨a5, a6⟩
  · exact hb ⟨a7, a8⟩
  · exact hb ⟨a9, a10⟩
  · simp only at a11
    unfold truncInt at a11
    rw [if_pos (by linarith)] at a11
    have hneg : s.2.value.num ≤ - s.2.value.den := by
      by_contra hc
      push Not at hc
      have h1 : ((- s.2.value.den : Int) : Rat) < (s.2.value.num : Rat) := by exact_mod_cast hc
      have h2 : (s.2.value.num : Rat) = s.2.value * s.2.value.den := (Rat.mul_den_eq_num s.2.value).symm
      have h3 : (0 : Rat) < s.2.value.den := by exact_mod_cast s.2.value.den_pos
      push_cast at h1
      nlinarith
    have h4 : (0 : Int) < s.2.value.den := by exact_mod_cast s.2.value.den_pos
    generalize s.2.value.num = a at hneg a11
    generalize ((s.2.value.den : Nat) : Int) = b at hneg a11 h4
    have h5 : a.tdiv b ≤ (-b).tdiv b := by
      rw [Int.neg_tdiv, Int.tdiv_self (by omega)]
      have h6 : a = -(-a) := by omega
      rw [h6, Int.neg_tdiv]
      have : 1 ≤ (-a).tdiv b := by
        rw [Int.tdiv_eq_ediv_of_nonneg (by omega)]
        exact (Int.le_ediv_iff_mul_le h4).2 (by omega)
      omega
    rw [Int.neg_tdiv, Int.tdiv_self (by omega)] at h5
    omega

example : extractTime "2001 13 1 0 0 0 5\n".toList = none ∧ extractTime "2001 12 1 0 60 0 5\n".toList = none ∧
    extractTime "2001 12 1 0 0 -1 5\n".toList = none := by decide +kernel

/-- C64: existing times are ordered as the calendar and the clock are. -/
theorem C64_order {a b : Stamp} (ha : a.Valid) (hb : b.Valid) {ta tb : TimeLoop.Time} (hta : julTime a = some ta)
    (htb : julTime b = some tb) : ta.jt < tb.jt ↔ a.Before b :=
  julTime_lt ha hb hta htb

/-- C64: equal times in days are equal times. -/
theorem C64_injective {a b : Stamp} (ha : a.Valid) (hb : b.Valid) {ta tb : TimeLoop.Time} (hta : julTime a = some ta)
    (htb : julTime b = some tb) (h : ta.jt = tb.jt) : a = b := by
  have h1 : ¬ a.Before b := fun hh => absurd ((julTime_lt ha hb hta htb).2 hh) (by rw [h]; exact lt_irrefl _)
  have h2 : ¬ b.Before a := fun hh => absurd ((julTime_lt hb ha htb hta).2 hh) (by rw [h]; exact lt_irrefl _)
  obtain ⟨a1, a2, a3, a4, a5, a6⟩ := a
  obtain ⟨b1, b2, b3, b4, b5, b6⟩ := b
  simp only [Stamp.Before, Calendar.Before] at h1 h2
  simp only [Stamp.mk.injEq]
  omega

example : (⟨1999, 12, 31, 23, 59, 59⟩ : Stamp).Valid ∧ (⟨2000, 1, 1, 0, 0, 0⟩ : Stamp).Valid ∧
    (⟨1999, 12, 31, 23, 59, 59⟩ : Stamp).Before ⟨2000, 1, 1, 0, 0, 0⟩ ∧
    julTime ⟨1999, 12, 31, 23, 59, 59⟩ = some ⟨2451544, 2451544 + 86399 / 86400⟩ ∧
    julTime ⟨2000, 1, 1, 0, 0, 0⟩ = some ⟨2451545, 2451545⟩ := by decide +kernel

/-- C64: 24:00 is the midnight at the end of the day: the same time as 0:00 of the following day (but on the day number of its
own day). -/
theorem C64_midnight {y m d : Int} (h : Calendar.Valid ⟨y, m, d⟩) {t u : TimeLoop.Time}
    (ht : julTime ⟨y, m, d, 24, 0, 0⟩ = some t)
    (hu : julTime ⟨(Calendar.next ⟨y, m, d⟩).year, (Calendar.next ⟨y, m, d⟩).month, (Calendar.next ⟨y, m, d⟩).day, 0, 0, 0⟩ = some u) :
    t.jt = u.jt ∧ t.jd + 1 = u.jd := by
  have h1 := Calendar.jd_next h
  have h2 := Calendar.julday_jd h
  have h3 := Calendar.julday_jd (Calendar.next_valid h)
  unfold julTime at ht hu
  dsimp only at ht hu
  rw [h2] at ht
  rw [show (⟨(Calendar.next ⟨y, m, d⟩).year, (Calendar.next ⟨y, m, d⟩).month, (Calendar.next ⟨y, m, d⟩).day⟩ : Calendar.Date) =
    Calendar.next ⟨y, m, d⟩ from rfl, h3] at hu
  simp only [Option.some.injEq] at ht hu
  subst ht; subst hu
  refine ⟨?_, h1.symm⟩
  simp only [h1]
  push_cast
  norm_num

example : Calendar.Valid ⟨1999, 12, 31⟩ ∧ julTime ⟨1999, 12, 31, 24, 0, 0⟩ = some ⟨2451544, 2451545⟩ := by decide +kernel

/-! ### C65: times that do not exist -/

/-- C65 (partial): a date with a day, month or year out of the fixed ranges is refused (`C64_reject`); this is all that is
checked, for every text: an accepted line has fields in these ranges.

Missing: dates and times that do not exist within these ranges are accepted (`C65_date_violated`, `C65_seconds_violated`). -/
theorem C65_ranges_partial {line rest : List Char} {t : Stamp} (h : extractTime line = some (t, rest)) :
    1800 ≤ t.year ∧ t.year ≤ 2100 ∧ 1 ≤ t.month ∧ t.month ≤ 12 ∧ 1 ≤ t.day ∧ t.day ≤ 31 ∧ 0 ≤ t.hour ∧ t.hour ≤ 24 ∧
      0 ≤ t.min ∧ t.min ≤ 59 ∧ 0 ≤ t.sec := by
  unfold extractTime at h
  simp only at h
  split at h
  · simp at h
  split at h
  · simp at h
  split at h
  · simp at h
  split at h
  · simp at h
  split at h
  · simp at h
  split at h
  · simp at h
  simp only [Option.some.injEq, Prod.mk.injEq] at h
  obtain ⟨rfl, -⟩ := h
  dsimp only
  omega

example : ∃ t rest, extractTime "2000 2 29 12 30 0\n".toList = some (t, rest) := ⟨⟨2000, 2, 29, 12, 30, 0⟩, ['\n'], by decide +kernel⟩

/-- C65 does not hold: 30 February is accepted and is the same time as 2 March. -/
theorem C65_date_violated :
    extractTime "2001 2 30 0 0 0 5\n".toList = some (⟨2001, 2, 30, 0, 0, 0⟩, " 5\n".toList) ∧
    ¬ Calendar.Valid ⟨2001, 2, 30⟩ ∧
    julTime ⟨2001, 2, 30, 0, 0, 0⟩ = julTime ⟨2001, 3, 2, 0, 0, 0⟩ := by decide +kernel

/-- C65 does not hold: any number of seconds is accepted (the check looks at the minutes); 7200 seconds are two hours. -/
theorem C65_seconds_violated :
    extractTime "2001 2 3 0 0 7200 5\n".toList = some (⟨2001, 2, 3, 0, 0, 7200⟩, " 5\n".toList) ∧
    julTime ⟨2001, 2, 3, 0, 0, 7200⟩ = julTime ⟨2001, 2, 3, 2, 0, 0⟩ := by decide +kernel

/-! ### C66: malformed data -/

/-- C66 (partial): a number out of range in a column of type float or double, all columns before it being well-formed, stops
the reading of the line.

Missing: the run then ends as if the data were complete (`C66_range_violated`); missing or misplaced values are not noticed
(`C66_missing_violated`, `C66_text_violated`, `C66_fraction_violated`), an error in the header is passed over
(`C66_header_violated`). -/
theorem C66_range_partial {V} (cv : Conv V) (c : Col) (cs : List Col) (s : List Char) (d : Dec) (r : List Char)
    (hs : Blank s) (hd : d.Ok) (hr : AfterWord r) (ht : c.type ≠ .long) (hc : 0 < c.count) (h : cv.range d.value = true) :
    readValues cv (c :: cs) (s ++ d.text ++ r) = none := by
  obtain ⟨k, ty, n⟩ := c
  obtain ⟨n, rfl⟩ : ∃ m, n = m + 1 := ⟨n - 1, by simp only at hc; omega⟩
  have h1 : readValue cv ty (s ++ d.text ++ r) = none := by
    have := strtod_word hs hd hr
    cases ty with
    | long => exact absurd rfl ht
    | float => simp only [readValue, this, h, if_true]
    | double => simp only [readValue, this, h, if_true]
  simp only [readValues, readCol, h1]

example : readValues exConv [⟨"a".toList, .float, 1⟩] " 1e3\n".toList = none := by decide +kernel

/-- C66 does not hold: whatever columns are declared, a line without values is accepted and gives zeros. -/
theorem C66_missing_violated {V} (cv : Conv V) (hc : cv.range 0 = false) (s : List Char) (hs : ∀ c ∈ s, isSpace c = true) :
    ∀ cols : List Col, readValues cv cols s = some (cols.map fun c => List.replicate c.count
      (match c.type with | .long => cv.long 0 | .float => cv.float 0 | .double => cv.double 0))
  | [] => rfl
  | c :: cols => by
    have ih := C66_missing_violated cv hc s hs cols
    have h1 : ∀ n, readCol cv c.type n s = some (List.replicate n
        (match c.type with | .long => cv.long 0 | .float => cv.float 0 | .double => cv.double 0), s) := by
      intro n
      induction n with
      | zero => rfl
      | succ n ihn =>
        have hv : readValue cv c.type s =
            some (match c.type with | .long => cv.long 0 | .float => cv.float 0 | .double => cv.double 0, s) := by
          cases ht : c.type <;> simp [readValue, space_strtol hs, space_strtod hs, hc]
        simp only [readCol, hv, ihn, List.replicate_succ]
    simp only [readValues, h1, ih, List.map_cons]

example : exConv.range 0 = false ∧ ∀ c ∈ " \n".toList, isSpace c = true := by decide +kernel

/-- C66 does not hold: a word that is no number is not noticed; it and everything after it count as zero. -/
theorem C66_text_violated :
    readValues exConv [⟨"a".toList, .float, 3⟩] " 1.5 n/a 2.5\n".toList = some [[3/2, 0, 0]] := by decide +kernel

/-- C66 does not hold: a fraction in a column of whole numbers is taken as the value of the next column. -/
theorem C66_fraction_violated :
    readValues exConv [⟨"a".toList, .long, 1⟩, ⟨"b".toList, .float, 1⟩] " 1.5 20\n".toList = some [[1], [1/2]] := by decide +kernel

/-- C66 does not hold: a number out of range ends the run with code 1, the normal end of the window, at once. -/
theorem C66_range_violated :
    run exConv exVars ⟨2451544, 2451544, 2451600, 24⟩ ⟨0, 0⟩
      ["x\nrunoff 1\n####\n1999 12 31 0 0 0 0.25\n2000 1 1 0 0 0 1e9\n2000 1 2 0 0 0 0.5\n".toList] =
      some ([⟨1, ⟨2451544, 2451544⟩, 1, [[1/4]]⟩], .code 1) := by decide +kernel

/-- C66 does not hold: a header line naming an undeclared variable is an error, but the run goes on with the columns before
it. -/
theorem C66_header_violated :
    readDatainfo exVars "x\nrunoff 1\nrain 1\ncode 1\n####\n1999 12 31 0 0 0 0.25 3 4\n".toList =
      ([⟨"runoff".toList, .float, 1⟩], false) ∧
    run exConv exVars ⟨2451544, 2451544, 2451600, 24⟩ ⟨0, 0⟩
      ["x\nrunoff 1\nrain 1\ncode 1\n####\n1999 12 31 0 0 0 0.25 3 4\n".toList] =
      some ([⟨1, ⟨2451544, 2451544⟩, 1, [[1/4]]⟩], .code 2) := by decide +kernel

/-! ### C67: several data files -/

/-- C67 (partial): if all (well-formed) data files declare the same columns, all are read with these.

Missing: files with different headers (`C67_headers_violated`). -/
theorem C67_same_header_partial {V} {vars : List (Var V)} {cols : List Col} (old : List Col) :
    ∀ texts : List (List Char), texts ≠ [] → (∀ t ∈ texts, readDatainfo vars t = (cols, true)) →
      readDataInfos vars old texts = cols
  | [], h, _ => absurd rfl h
  | t :: ts, _, ht => by
    rw [readDataInfos, ht t (by simp)]
    simp only
    cases ts with
    | nil => rfl
    | cons u us => exact C67_same_header_partial cols (u :: us) (by simp) fun t h => ht t (List.mem_cons_of_mem _ h)

example : readDatainfo exVars "x\nrunoff 1\n####\n1999 12 31 0 0 0 0.25\n".toList = ([⟨"runoff".toList, .float, 1⟩], true) ∧
    readDatainfo exVars "y\nrunoff 1\n####\n1999 12 30 0 0 0 0.5\n".toList = ([⟨"runoff".toList, .float, 1⟩], true) := by
  decide +kernel

/-- C67 does not hold: the lines of every file are read with the header of the last file.  Here the first file declares
`runoff` (0.25), its record arrives as `precip`. -/
theorem C67_headers_violated :
    readDataInfos exVars [] ["x\nrunoff 1\n####\n1999 12 31 0 0 0 0.25\n2000 1 2 0 0 0 0.5\n".toList,
      "y\nprecip 2\n####\n2000 1 1 0 0 0 3 4\n".toList] = [⟨"precip".toList, .double, 2⟩] ∧
    run exConv exVars ⟨2451544, 2451544, 2451600, 24⟩ ⟨0, 0⟩
      ["x\nrunoff 1\n####\n1999 12 31 0 0 0 0.25\n2000 1 2 0 0 0 0.5\n".toList,
        "y\nprecip 2\n####\n2000 1 1 0 0 0 3 4\n".toList] =
      some ([⟨1, ⟨2451544, 2451544⟩, 1, [[1/4, 0]]⟩, ⟨2, ⟨2451545, 2451545⟩, 1, [[3, 4]]⟩,
        ⟨3, ⟨2451546, 2451546⟩, 1, [[1/2, 0]]⟩], .code 2) := by decide +kernel

end Verif.DataLine
