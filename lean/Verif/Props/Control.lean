import Verif.Lemmas.Control
/-
C14  Control file values never overrun declared storage.
C47  Control values handed to Fortran modules.
-/
namespace Verif.Control
open Verif.CText

/-- A small parser used in the concrete cases below: a "floating point number" is its text without
trailing white space. -/
def textParse : Parse (List Char) :=
  ⟨fun s => (s.reverse.dropWhile isSpace).reverse, fun s => (s.reverse.dropWhile isSpace).reverse⟩

theorem textParse_trailing : TrailingSpace textParse := by
  intro s c hc
  simp [textParse, hc]

/-- C14 (partial).  Reading a well-formed control file (records in any number, comments and blank
lines anywhere) whose records have the declared type and no more values than declared succeeds, and
leaves every control variable with exactly the values assigned by the records in order.

Missing from the full claim: records larger than the declaration overrun the storage
(`C14_overrun_violated`), and the size of an existing variable is not changed to that of the record
(`C14_size_violated`). -/
theorem C14_reads_partial {F} (ps : Parse F) (hp : TrailingSpace ps) (db : Db F) (ht : Typed db)
    (f : File) (hf : f.Ok) (hfit : FitsAll ps (storeOf db) f.recs) :
    ∃ db', rc ps db (some f.render) = .ret none db' ∧
      storeOf db' = f.recs.foldl (assign ps) (storeOf db) := by
  have htl := hf.title
  have h0 : f.render.length = f.title.render.length +
      (f.recs.flatMap (fun x => x.1.render)).length + (f.tail.flatMap Datum.render).length := by
    simp only [File.render, List.length_append]
  have hr := recs_length f.recs
  obtain ⟨db', line', h1, h2, h3, h4⟩ := readLoop_recs hp (fuel := f.render.length + 2) f.recs hf.recs
    (f.render.length + 2 - f.recs.length) db (f.title.text ++ [f.title.endc])
    (f.tail.flatMap Datum.render) ht hfit
    (fun e => htl.2 ((header_take _ (endc_ne _)).1 e)) (by omega)
  refine ⟨db', ?_, h2⟩
  simp only [rc, Verif.CFile.openText]
  have hren : f.render = f.title.render ++ (f.recs.flatMap (fun x => x.1.render) ++ f.tail.flatMap Datum.render) := by
    simp [File.render]
  rw [show (Verif.CFile.Stream.mk f.render false) =
    ⟨f.title.render ++ (f.recs.flatMap (fun x => x.1.render) ++ f.tail.flatMap Datum.render), false⟩ by rw [← hren],
    getLine_line htl.1 (fuel := f.render.length + 2) (by omega)]
  simp only [Out.bind]
  rw [show f.render.length + 2 = (f.render.length + 2 - f.recs.length) + f.recs.length by omega]
  rw [show (f.render.length + 2 - f.recs.length) + f.recs.length = f.render.length + 2 by omega] at h4 ⊢
  rw [h4]
  obtain ⟨k, hk⟩ : ∃ k, f.render.length + 2 - f.recs.length = k + 1 := ⟨f.render.length + 1 - f.recs.length, by omega⟩
  rw [hk, readLoop]
  simp only [Bool.false_eq_true, if_false]
  have htail := lines_length f.tail
  rw [skipHeader_end db' hf.tail h3 (by omega) (by omega)]
  rfl

/-- C14 fails.  For every data base and every record with more values than the declared variable has
room for, the file consisting of that record writes past the storage of the variable. -/
theorem C14_overrun_violated {F} (ps : Parse F) (hp : TrailingSpace ps) (db : Db F) (ht : Typed db)
    (title : Datum) (htitle : title.Ok 256 ∧ ¬ IsHeader title.text) (x : Rec) (ty : Nat) (hx : x.Ok ty)
    (v : Var F) (hv : storeOf db x.key.text = some v) (hty : v.type = ty)
    (hsize : v.cells.length < x.vals.length) :
    rc ps db (some (title.render ++ x.render)) = .overrun := by
  simp only [rc, Verif.CFile.openText]
  rw [getLine_line htitle.1 (by simp only [List.length_append]; omega)]
  simp only [Out.bind]
  have hq := rec_render x
  have q1 := lines_length x.free
  have q2 := datum_render_length (d := x.header)
  have q3 := datum_render_length (d := x.key)
  have hlen : x.render.length < (title.render ++ x.render).length + 2 := by
    simp only [List.length_append]; omega
  rw [readLoop]
  simp only [Bool.false_eq_true, if_false]
  generalize (title.render ++ x.render).length + 2 = fuel at hlen ⊢
  have hskip := skipHeader_found db (free := x.free) (header := x.header) (fuel := fuel)
    (fun d hd => ⟨hx.lines d (by simp [Rec.lines, hd]), hx.free d hd⟩)
    (hx.lines _ (by simp [Rec.lines])) hx.header (n := fuel) (line := title.text ++ [title.endc])
    (x.key.render ++ (x.size.render ++ (x.type.render ++ (x.vals.flatMap Datum.render ++ []))))
    (fun e => htitle.2 ((header_take _ (endc_ne _)).1 e))
    (by rw [hq] at hlen; simp only [List.length_append] at hlen ⊢; omega)
    (by rw [hq] at hlen; simp only [List.length_append] at hlen; omega)
  rw [show x.render = x.free.flatMap Datum.render ++ x.header.render ++ (x.key.render ++ (x.size.render ++
    (x.type.render ++ (x.vals.flatMap Datum.render ++ [])))) by rw [hq]; simp, hskip]
  simp only [Out.bind]
  rw [record_head hx hlen]
  cases hc : controlAddr db x.key.text with
  | none => simp [storeOf, hc] at hv
  | some c =>
    simp only [storeOf, hc, Option.map_some, Option.some.injEq] at hv
    subst hv
    have hty' : c.type = ty := by
      have := ht c (controlAddr_mem hc)
      simp only at hty
      omega
    rw [entryFor_some hc]
    simp only [Out.bind]
    rw [storeLoop_overrun hp hx.known db hty' (fun d hd => hx.lines d (by simp [Rec.lines, hd])) [] 0
      c.mem _ (by omega) (by simpa using hsize)
      (by rw [hq] at hlen; simp only [List.length_append] at hlen; omega)]

/-- C14, termination: reading any file whatever, well-formed or not, comes to an end; the bounds of
the model's loops are never reached and the reader always returns or fails in one of the listed
ways. -/
theorem C14_terminates {F} (ps : Parse F) (db : Db F) (file : Option (List Char)) :
    rc ps db file ≠ .fuel ∧ rc ps db file ≠ .ok () := by
  cases file with
  | none => simp [rc]
  | some s =>
    simp only [rc]
    have h1 := getLine_consumes (F := F) (num := MAXLNLEN) (by decide) (fuel := s.length + 2)
      (st := Verif.CFile.openText s) (by simp [Verif.CFile.openText]) (some 8) db
    cases g1 : getLine (s.length + 2) MAXLNLEN (Verif.CFile.openText s) (some 8) db with
    | fuel => exact absurd g1 h1.1
    | ok p =>
      obtain ⟨l, st⟩ := p
      have k1 := h1.2 _ _ g1
      simp only [Verif.CFile.openText] at k1
      simp only [Out.bind]
      exact readLoop_fuel ps _ db l st (by omega) (by omega)
    | _ => simp [Out.bind]

example : rc textParse ([] : Db (List Char)) (some "a\n####\n".toList) = .ret (some 1) [] := by
  decide +kernel

/-- A plain data line. -/
def plain (s : String) : Datum := ⟨[], s.toList, none⟩

/-- The record of the example: `start_time` has six elements, the file gives three. -/
def exRec : Rec :=
  { free := [plain "free text"], header := plain "####", key := ⟨[.comment " key".toList, .blank], "start_time".toList, none⟩,
    size := plain "3", type := plain "1",
    vals := [plain "1998", ⟨[], "10".toList, some " month".toList⟩, plain "1"] }

def exFile : File := ⟨plain "title", [(exRec, 1)], [plain "end"]⟩

def exDb : Db (List Char) :=
  [⟨"start_time".toList, 1, 6, [2000, 10, 1, 0, 0, 0].map fun n => some (.lng n)⟩]

/-- Decidable form of the conditions, used for the concrete cases. -/
theorem not_slashes_of {s : List Char} (h : beforeSlashes s = none) : ¬ HasSlashes s := by
  rintro ⟨a, b, rfl⟩
  induction a with
  | nil => simp [beforeSlashes] at h
  | cons c a ih =>
    apply ih
    simp only [List.cons_append] at h
    unfold beforeSlashes at h
    split at h
    · simp at h
    · rename_i heq; simp at heq
    · rename_i heq
      simp only [List.cons.injEq] at heq
      obtain ⟨rfl, rfl⟩ := heq
      simpa using h

instance (s : List Char) : Decidable (HasSlashes s) :=
  if h : beforeSlashes s = none then isFalse (not_slashes_of h)
  else isTrue (Classical.byContradiction fun e => h (beforeSlashes_none e))

instance (s : List Char) : Decidable (IsHeader s) := inferInstanceAs (Decidable (_ <+: _))

instance (m : Nat) (s : Skip) : Decidable (s.Ok m) := by cases s <;> unfold Skip.Ok <;> infer_instance

theorem datum_ok_iff (m : Nat) (d : Datum) : d.Ok m ↔ ((∀ s ∈ d.before, s.Ok m) ∧ d.text ≠ [] ∧
    '\n' ∉ d.text ∧ ¬ HasSlashes d.text ∧ (match d.comment with | none => True | some c => '\n' ∉ c) ∧
    (d.text ++ d.tail).length + 1 ≤ m) := by
  unfold Datum.Ok
  cases d.comment <;> simp

instance (c : Option (List Char)) : Decidable (match c with | none => True | some c => '\n' ∉ c) := by
  cases c <;> simp only <;> infer_instance

instance (m : Nat) (d : Datum) : Decidable (d.Ok m) := decidable_of_iff _ (datum_ok_iff m d).symm

theorem exRec_ok : exRec.Ok 1 :=
  ⟨by decide +kernel, by decide +kernel, by decide +kernel, by decide +kernel, by decide +kernel,
    by decide +kernel, by decide, by decide +kernel⟩

theorem exFile_ok : exFile.Ok :=
  ⟨by decide +kernel, by intro x hx; simp only [exFile, List.mem_singleton] at hx; subst hx; exact exRec_ok,
    by decide +kernel⟩

/-- The hypotheses of `C14_reads_partial` hold for the example file, which has comments, blank lines
and an existing variable. -/
example : FitsAll textParse (storeOf exDb) exFile.recs ∧ Typed exDb ∧ exFile.Ok ∧ TrailingSpace textParse := by
  refine ⟨⟨?_, trivial⟩, ?_, exFile_ok, textParse_trailing⟩
  · intro v hv
    have : storeOf exDb exRec.key.text = some ⟨1, 6, [2000, 10, 1, 0, 0, 0].map fun n => some (.lng n)⟩ := by
      decide +kernel
    rw [this] at hv
    cases hv
    decide
  · intro c hc
    simp only [exDb, List.mem_singleton] at hc
    subst hc
    simp

/-- … and the file assigns the first three elements. -/
example : rc textParse exDb (some exFile.render) =
    .ret none [⟨"start_time".toList, 1, 6, [1998, 10, 1, 0, 0, 0].map fun n => some (.lng n)⟩] := by
  decide +kernel

/-- The overrun is met by a two-element record of a one-element variable. -/
example : rc textParse [⟨"print_debug".toList, 1, 1, [some (.lng 0)]⟩]
    (some "title\n####\nprint_debug\n2\n1\n5\n6\n".toList) = .overrun := by decide +kernel

/-- C14 fails for the reported size: after a record with fewer values than declared the variable
still reports the declared size, so element 2 of the old contents remains visible although the file
gives the variable two elements. -/
theorem C14_size_violated :
    ∃ (db db' : Db (List Char)) (file : List Char),
      file = "title\n####\nstatVar_names\n2\n4\na\nb\n".toList ∧
      rc textParse db (some file) = .ret none db' ∧
      controlVarSize db' "statVar_names".toList = 3 ∧
      controlArray db' "statVar_names".toList 2 = some (some (.str "z".toList)) := by
  refine ⟨[⟨"statVar_names".toList, 4, 3, ["x", "y", "z"].map fun s => some (.str s.toList)⟩],
    [⟨"statVar_names".toList, 4, 3, ["a", "b", "z"].map fun s => some (.str s.toList)⟩], _, rfl, ?_, ?_, ?_⟩ <;>
  decide +kernel

/-- C14 fails when the last line of the file has no newline: the last character of a text value is
lost. -/
theorem C14_last_line_violated :
    rc textParse [] (some "title\n####\ndata_file\n1\n4\nrun.dat".toList) =
      .ret none [⟨"data_file".toList, 4, 1, [some (.str "run.da".toList)]⟩] := by
  decide +kernel

/-- C14 fails for every text value that contains `//` without a blank before it (a path such as
`out//run`): the reader looks for a blank before the start of its line buffer. -/
theorem C14_double_slash_violated {F} (db : Db F) (fuel : Nat) (w r : List Char) (m : Option Nat)
    (h0 : w ≠ []) (h1 : ' ' ∉ w) (h2 : '\n' ∉ w) (h3 : HasSlashes w) (h4 : ¬ ['/', '/'] <+: w)
    (h5 : w.length + 2 ≤ 256) :
    getLine (fuel + 1) 256 ⟨w ++ '\n' :: r, false⟩ m db = .badLine := by
  have hg := Verif.CFile.fgets_line h2 h5 r false
  unfold getLine
  rw [fgetsRc, hg]
  have hpre : ∃ p, beforeSlashes (w ++ ['\n']) = some p ∧ ' ' ∉ p := by
    clear hg h0 h4 h5
    induction w with
    | nil => obtain ⟨a, b, e⟩ := h3; simp at e
    | cons c w ih =>
      rw [List.cons_append]
      unfold beforeSlashes
      split
      · exact ⟨[], rfl, by simp⟩
      · rename_i e; simp at e
      · rename_i hne heq
        cases heq
        have : HasSlashes w := by
          obtain ⟨a, b, e⟩ := h3
          cases a with
          | nil =>
            simp only [List.nil_append, List.cons_append, List.cons.injEq] at e
            exact absurd (hne (b ++ ['\n']) e.1.symm (by rw [← e.2]; simp)) id
          | cons d a =>
            simp only [List.cons_append, List.cons.injEq] at e
            exact ⟨a, b, e.2⟩
        obtain ⟨p, hp1, hp2⟩ := ih (fun e => h1 (by simp [e])) (fun e => h2 (by simp [e])) this
        exact ⟨c :: p, by simp [hp1], by simp only [List.mem_cons, not_or]; exact ⟨fun e => h1 (by rw [e]; simp), hp2⟩⟩
  obtain ⟨p, hp1, hp2⟩ := hpre
  have ht : ¬ (w ++ ['\n']).take 2 = ['/', '/'] := by
    intro e
    apply h4
    match w, h0 with
    | [a], _ => simp at e
    | a :: b :: w, _ =>
      simp at e
      rw [e.1, e.2]
      exact ⟨w, rfl⟩
  have hl : ¬ (w ++ ['\n']).length ≤ 1 := by
    have : 1 ≤ w.length := by
      rcases Nat.eq_zero_or_pos w.length with h | h
      · exact absurd (List.length_eq_zero_iff.1 h) h0
      · exact h
    simp only [List.length_append, List.length_cons, List.length_nil]; omega
  simp only [ht, if_false, hl, hp1, splitLast_none.2 hp2]

/-- A path with a doubled slash meets the hypotheses. -/
example : getLine 5 256 ⟨"out//run".toList ++ '\n' :: [], false⟩ none ([] : Db Nat) = .badLine := by
  decide +kernel

/-- C14 for the command line: a `-set name=w₁,w₂,…` option for a text variable stores exactly the
words, in order from the first element, when there are not more of them than elements, and changes
nothing else.  (`layout`: the words with their comma separators.) -/
theorem C14_set_option {F} (ps : Parse F) (db : Db F) (name : List Char) (c : Ctl F)
    (l : List (List Char × List Char)) (hl : ProperLayout (fun ch => ch = ',') l)
    (hc : controlAddr db name = some c) (hk : c.type = 4) (h : l.length ≤ c.mem.length) :
    ∃ db', setOption ps db name (layout l) = .ok db' ∧
      controlAddr db' name = some { c with mem := (l.map (fun w => some (Val.str w.1)) ++
          c.mem.drop l.length) } ∧
      ∀ k, k ≠ name → controlAddr db' k = controlAddr db k := by
  have key : ∀ (ws : List (List Char)) (j : Nat) (mem : List (Option (Val F))),
      j + ws.length ≤ mem.length →
      setWords ps c j mem ws = .ok (mem.take j ++ ws.map (fun w => some (.str w)) ++
        mem.drop (j + ws.length)) := by
    intro ws
    induction ws with
    | nil => intro j mem _; simp [setWords]
    | cons w ws ih =>
      intro j mem hle
      simp only [List.length_cons] at hle
      have hcell : storeCell c mem c.type j (Val.str w) = .ok (mem.set j (some (.str w))) := by
        have : (j + 1) * typeWidth c.type ≤ mem.length * typeWidth c.type :=
          Nat.mul_le_mul_right _ (by omega)
        simp only [storeCell]
        rw [if_neg (by omega), if_neg (by simp)]
      rw [setWords, if_pos hk, hcell]
      simp only [Out.bind]
      rw [ih (j + 1) _ (by simp; omega), set_take_drop _ _ _ (by omega)]
      have e1 : (mem.take j ++ some (Val.str w) :: mem.drop (j + 1)).take (j + 1) =
          mem.take j ++ [some (Val.str w)] := by
        rw [List.take_append]
        have : (mem.take j).length = j := by simp; omega
        rw [List.take_of_length_le (by omega), this]
        simp
      have e2 : (mem.take j ++ some (Val.str w) :: mem.drop (j + 1)).drop (j + 1 + ws.length) =
          mem.drop (j + (ws.length + 1)) := by
        rw [List.drop_append]
        have : (mem.take j).length = j := by simp; omega
        rw [List.drop_eq_nil_of_le (by omega), this, List.nil_append]
        rw [show j + 1 + ws.length - j = ws.length + 1 by omega, List.drop_succ_cons, List.drop_drop]
        congr 1; omega
      rw [e1, e2]
      simp
  have hkey := controlAddr_key hc
  simp only [setOption, hc, strtok_layout l hl]
  rw [key _ 0 c.mem (by simpa using h)]
  refine ⟨_, rfl, ?_, ?_⟩
  · rw [controlAddr_update, if_pos hkey.symm, hkey, hc]
    simp [hkey]
  · intro k hne
    rw [controlAddr_update, if_neg (by rw [hkey]; exact hne)]

example : setOption textParse [⟨"data_file".toList, 4, 2, [some (.str "a".toList), some (.str "b".toList)]⟩]
    "data_file".toList "x".toList =
    .ok [⟨"data_file".toList, 4, 2, [some (.str "x".toList), some (.str "b".toList)]⟩] := by decide +kernel

/-- A `-set` option with more words than the variable has elements overruns it. -/
theorem C14_set_overrun_violated :
    setOption textParse [⟨"data_file".toList, 4, 1, [some (.str "a".toList)]⟩] "data_file".toList
      "x,y".toList = .overrun := by decide +kernel

/-- C47.  The integer handed to Fortran equals the stored control value exactly when the value lies
in the range of one signed byte. -/
theorem C47_integer_iff (n : Int) : controlInteger n = n ↔ -128 ≤ n ∧ n < 128 := by
  unfold controlInteger
  split <;> omega

/-- C47 fails: the default start year 2000 is delivered as −48. -/
theorem C47_integer_violated : controlInteger 2000 = -48 := by decide

/-- C47 (partial).  The text handed to Fortran starts with the stored text and fills the whole
Fortran variable without exceeding it.  Missing: the rest is not blank
(`C47_string_padding_violated`). -/
theorem C47_string_partial (len : Nat) (s : List Char) (h : s.length ≤ len) :
    (controlString len s).length = len ∧ (controlString len s).take s.length = s := by
  have hl : (strncpy len s).length = len := by
    simp only [strncpy, List.length_append, List.length_take, List.length_replicate]; omega
  constructor
  · simp only [controlString, List.length_append, hl, List.length_drop, List.length_replicate]; omega
  · have : controlString len s = strncpy len s := by
      simp [controlString, hl]
    rw [this, strncpy, List.take_of_length_le h, List.take_left' rfl]

/-- C47 fails for the padding: for every text shorter than the Fortran variable the rest is filled
with zero characters, not blanks. -/
theorem C47_string_padding_violated (len : Nat) (s : List Char) (h : s.length < len) :
    controlString len s ≠ s ++ List.replicate (len - s.length) ' ' := by
  have hl : (strncpy len s).length = len := by
    simp only [strncpy, List.length_append, List.length_take, List.length_replicate]; omega
  have : controlString len s = strncpy len s := by
    simp [controlString, hl]
  rw [this, strncpy, List.take_of_length_le (by omega)]
  intro e
  have := List.append_cancel_left e
  have h0 : 0 < len - s.length := by omega
  generalize len - s.length = k at this h0
  cases k with
  | zero => omega
  | succ k =>
    rw [List.replicate_succ, List.replicate_succ] at this
    simp only [List.cons.injEq] at this
    exact absurd this.1 (by decide)

example : (controlString 8 "PRMS".toList).length = 8 := by decide +kernel

end Verif.Control
