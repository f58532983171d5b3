import Verif.Lemmas.TspStatvar
import Verif.Model.TspText
/-
C144: series from statvar files in TSPROC.
-/
namespace Verif.TspStv
open Verif.Tsp Verif.TspSsf Verif.TspText

/-- The block is accepted exactly if it consists of VARIABLE_NAME, LOCATION_ID and NEW_SERIES_NAME in this order, at least once and not more
often than MAXSERIESREAD, with new names that differ and variables (50 characters, in lower case) that differ or have other locations;
and these are the series. -/
theorem C144_block (max : Nat) (ks : List Key) (as : List Ask) :
    readBlock max ks = some as ↔ ∃ ws : List Ask, ks.filter (· ≠ .other) = written ws ∧
      as = ws.map (fun a => ⟨varWant a.site, a.locid, a.aname⟩) ∧ ws ≠ [] ∧ ws.length ≤ max ∧ (ws.map Ask.aname).Nodup ∧
      (ws.map fun a => (varWant a.site, a.locid)).Nodup := by
  have en : ∀ ws : List Ask, (ws.map norm).map Ask.aname = ws.map Ask.aname := by
    intro ws
    rw [List.map_map]
    rfl
  have es : ∀ ws : List Ask, ((ws.map norm).map fun a => (a.site, a.locid)) = ws.map fun a => (varWant a.site, a.locid) := by
    intro ws
    rw [List.map_map]
    rfl
  unfold readBlock
  rw [blockRun_other]
  constructor
  · intro h
    split at h
    · exact absurd h (by simp)
    · rename_i s hs
      simp only [Option.ite_none_left_eq_some] at h
      obtain ⟨h1, h2, h3, h4, h5⟩ := h
      injection h5 with h5
      obtain ⟨ws, e1, e2, e3, e4⟩ := blockRun_inv max s _ [] _ (by simp) hs (by simpa using h1) (by simpa using h2) (by simp) (by simp)
      rw [List.nil_append] at e2
      rw [e2] at e3 e4 h3 h4
      refine ⟨ws, e1, ?_, ?_, by simpa using e4, ?_, ?_⟩
      · rw [← h5, e2]
        rfl
      · rintro rfl
        exact h3 rfl
      · rw [← en]
        exact e3
      · rw [← es]
        simpa using h4
  · rintro ⟨ws, e1, rfl, hne, hl, hn, hk⟩
    obtain ⟨c, hc⟩ := blockRun_written max ws [] ⟨[], 0, []⟩ (by simpa using hn) (by simpa using hl)
    rw [e1, hc]
    simp only
    rw [if_neg (by simp), if_neg (by simp), if_neg (by simpa using hne), if_neg (by rw [List.nil_append, es]; exact not_not_intro hk)]
    rfl

/-- The general law for files that can be read and have every series asked for: each series claims as many terms as there are rows in the
period; those stored are the terms of its column up to the first row after the period.  The column is the last one with the variable
and the location. -/
theorem C144_general (req : List (List Nat × Int)) (b e : Clock) (hb : 0 ≤ b.secs ∧ b.secs < 172800) (he : 0 ≤ e.secs ∧ e.secs < 172800)
    (hbe : b.time ≤ e.time) (hs : List Head) (hne : hs ≠ []) (hl : ∀ h ∈ hs, h.loc ≠ none) (hq : ∀ q ∈ req, InHead q hs)
    (rows : List (Option Row)) (rs : List Row) (hr : Readable hs.length rows rs) (hp : period b e rs ≠ []) :
    ∃ ser, getStatvar req b e hs rows = .ok (period b e rs).length ser ∧
      ∀ j q, req[j]? = some q → ∃ k, LastCol q hs k ∧ ser j = (period b e (upTo e rs)).map (Row.term k) := by
  obtain ⟨rfl, hv⟩ := hr
  obtain ⟨c, hc⟩ := scanHead_some (req := req) hs hl 1 ⟨fun _ => 0, 0⟩
  have hcol : ∀ j q, req[j]? = some q → ∃ k, LastCol q hs k ∧ c.datcol j = 1 + k := by
    intro j q hj
    rcases scanHead_col hs 1 _ c hc j q hj with h | h
    · exact h
    · exact absurd (hq q (List.mem_of_getElem? hj)) h.1
  have hd : ∀ j < req.length, c.datcol j ≠ 0 := by
    intro j hj
    obtain ⟨k, _, hk⟩ := hcol j _ (List.getElem?_eq_getElem hj)
    omega
  have ep : period (settle b) (settle e) rs = period b e rs := by
    unfold period
    rw [settle_time, settle_time]
  have eu : period (settle b) (settle e) (upTo (settle e) rs) = period b e (upTo e rs) := by
    unfold period upTo
    rw [settle_time, settle_time]
  have hcnt := countRows_eq (n := hs.length) (settle_proper hb) (settle_proper he) rs hv 0
  rw [ep, Nat.zero_add] at hcnt
  have hpos : 0 < (period b e rs).length := List.length_pos_iff.2 hp
  have hf := fillRows_eq (n := hs.length) (m := req.length) (settle_proper hb) (settle_proper he) (by rw [settle_time, settle_time]; exact hbe)
    (period b e rs).length rs hv hd 0 (fun _ => []) (by rw [ep]; omega)
  rw [eu] at hf
  refine ⟨fun j => if j < req.length then [] ++ (period b e (upTo e rs)).map (Row.term (c.datcol j - 1)) else [], ?_, ?_⟩
  · unfold getStatvar
    rw [if_neg hne, hc]
    simp only
    rw [if_neg (by rintro ⟨_, j, hj, h0⟩; exact hd j hj h0), hcnt]
    split
    · rename_i h; exact absurd h (by simp)
    · rename_i h
      injection h with h
      omega
    · rename_i k _ h
      injection h with h
      subst h
      exact hf
  · intro j q hj
    obtain ⟨k, h1, h2⟩ := hcol j q hj
    obtain ⟨hlt, _⟩ := List.getElem?_eq_some_iff.1 hj
    refine ⟨k, h1, ?_⟩
    simp only [if_pos hlt, List.nil_append]
    rw [show c.datcol j - 1 = k by omega]

/-- If the rows are in the order of time, each series has exactly the terms of its column in the period. -/
theorem C144_exact (req : List (List Nat × Int)) (b e : Clock) (hb : 0 ≤ b.secs ∧ b.secs < 172800) (he : 0 ≤ e.secs ∧ e.secs < 172800)
    (hbe : b.time ≤ e.time) (hs : List Head) (hne : hs ≠ []) (hl : ∀ h ∈ hs, h.loc ≠ none) (hq : ∀ q ∈ req, InHead q hs)
    (rows : List (Option Row)) (rs : List Row) (hr : Readable hs.length rows rs) (ho : rs.Pairwise fun p q => p.time ≤ q.time)
    (hp : period b e rs ≠ []) :
    ∃ ser, getStatvar req b e hs rows = .ok (period b e rs).length ser ∧
      ∀ j q, req[j]? = some q → ∃ k, LastCol q hs k ∧ ser j = (period b e rs).map (Row.term k) := by
  have hu : period b e (upTo e rs) = period b e rs := by
    clear hr hp
    induction rs with
    | nil => rfl
    | cons r rs ih =>
      rw [List.pairwise_cons] at ho
      by_cases h : r.time ≤ e.time
      · rw [upTo_cons_in h]
        by_cases h2 : b.time ≤ r.time
        · rw [period_cons_in h2 h, period_cons_in h2 h, ih ho.2]
        · rw [period_cons_out (by omega), period_cons_out (by omega), ih ho.2]
      · rw [upTo_cons_out (by omega), period_cons_out (by omega)]
        symm
        unfold period
        rw [List.filter_eq_nil_iff.2]
        · rfl
        · intro x hx
          have := ho.1 x hx
          simp only [decide_eq_true_eq]
          omega
  have := C144_general req b e hb he hbe hs hne hl hq rows rs hr hp
  rw [hu] at this
  exact this

/-- Files without rows in the period, with rows or locations that cannot be read, and without a header are errors. -/
theorem C144_errors (req : List (List Nat × Int)) (b e : Clock) (hb : 0 ≤ b.secs ∧ b.secs < 172800) (he : 0 ≤ e.secs ∧ e.secs < 172800)
    (hs : List Head) (rows : List (Option Row)) :
    getStatvar req b e [] rows = .error ∧ (none ∈ rows → getStatvar req b e hs rows = .error) ∧
    ((∃ h ∈ hs, h.loc = none) → getStatvar req b e hs rows = .error) ∧
    (∀ rs, Readable hs.length rows rs → period b e rs = [] → getStatvar req b e hs rows = .error) := by
  refine ⟨rfl, ?_, ?_, ?_⟩
  · intro h
    unfold getStatvar
    rw [countRows_bad rows h]
    split
    · rfl
    · split
      · rfl
      · split <;> rfl
  · rintro ⟨x, hx, hl⟩
    unfold getStatvar
    rw [scanHead_none hs x hx hl]
    split <;> rfl
  · rintro rs ⟨rfl, hv⟩ hp
    have hcnt := countRows_eq (n := hs.length) (settle_proper hb) (settle_proper he) rs hv 0
    have ep : period (settle b) (settle e) rs = period b e rs := by
      unfold period
      rw [settle_time, settle_time]
    rw [ep, hp] at hcnt
    unfold getStatvar
    rw [hcnt]
    split
    · rfl
    · split
      · rfl
      · split <;> rfl

/-- If no variable and location come twice in the header, a series that is not there is an error, whatever the rows. -/
theorem C144_absent (req : List (List Nat × Int)) (hn : req.Nodup) (b e : Clock) (hs : List Head)
    (hh : (hs.map fun h => (varHead h.varname, h.loc)).Nodup) (q : List Nat × Int) (hq : q ∈ req) (hm : ¬ InHead q hs)
    (rows : List (Option Row)) : getStatvar req b e hs rows = .error := by
  unfold getStatvar
  split
  · rfl
  · split
    · rfl
    · rename_i c hc
      rw [if_pos]
      refine ⟨?_, ?_⟩
      · rw [scanHead_count hn hs 1 _ c hc]
        simpa using matched_lt hh hq hm
      · obtain ⟨j, hj, rfl⟩ := List.getElem_of_mem hq
        refine ⟨j, hj, ?_⟩
        rcases scanHead_col hs 1 _ c hc j _ (List.getElem?_eq_getElem hj) with ⟨k, hk, _⟩ | h
        · exact absurd (lastCol_inHead hk) hm
        · exact h.2

/-- Whatever the file: nothing is written outside the series. -/
theorem C144_fits (req : List (List Nat × Int)) (b e : Clock) (hs : List Head) (rows : List (Option Row)) :
    getStatvar req b e hs rows ≠ .overflow := by
  unfold getStatvar
  split
  · simp
  · split
    · simp
    · split
      · simp
      · split
        · simp
        · simp
        · rename_i k _ hk
          exact fillRows_fits k rows 0 _ hk

/-- The check for series that are not in the file only counts matches.  If there are as many lines with series asked for as series — some
come twice — and one series is missing, the program reads the value number 0 of the row: undefined behaviour. -/
theorem C144_missing_violated (req : List (List Nat × Int)) (hn : req.Nodup) (b e : Clock) (hb : 0 ≤ b.secs ∧ b.secs < 172800)
    (he : 0 ≤ e.secs ∧ e.secs < 172800) (hbe : b.time ≤ e.time) (hs : List Head) (hl : ∀ h ∈ hs, h.loc ≠ none)
    (q : List Nat × Int) (hq : q ∈ req) (hm : ¬ InHead q hs) (hc : req.length ≤ matched req hs)
    (rows : List (Option Row)) (rs : List Row) (hr : Readable hs.length rows rs) (hp : period b e (upTo e rs) ≠ []) :
    getStatvar req b e hs rows = .undefined := by
  obtain ⟨rfl, hv⟩ := hr
  obtain ⟨c, hsc⟩ := scanHead_some (req := req) hs hl 1 ⟨fun _ => 0, 0⟩
  have hne : hs ≠ [] := by
    rintro rfl
    have := List.length_pos_of_mem hq
    simp [matched] at hc
    simp [hc] at this
  have hd : ∃ j < req.length, c.datcol j = 0 := by
    obtain ⟨j, hj, rfl⟩ := List.getElem_of_mem hq
    refine ⟨j, hj, ?_⟩
    rcases scanHead_col hs 1 _ c hsc j _ (List.getElem?_eq_getElem hj) with ⟨k, hk, _⟩ | h
    · exact absurd (lastCol_inHead hk) hm
    · exact h.2
  have hi := scanHead_count hn hs 1 _ c hsc
  simp only [Nat.zero_add] at hi
  have ep : period (settle b) (settle e) rs = period b e rs := by
    unfold period
    rw [settle_time, settle_time]
  have eu : period (settle b) (settle e) (upTo (settle e) rs) = period b e (upTo e rs) := by
    unfold period upTo
    rw [settle_time, settle_time]
  have hcnt := countRows_eq (n := hs.length) (settle_proper hb) (settle_proper he) rs hv 0
  rw [ep, Nat.zero_add] at hcnt
  have hpos : 0 < (period b e rs).length := by
    apply List.length_pos_iff.2
    intro h0
    apply hp
    unfold period upTo at *
    rw [List.filter_eq_nil_iff] at h0 ⊢
    exact fun x hx => h0 x ((List.takeWhile_sublist _).subset hx)
  have hf := fillRows_undefined (n := hs.length) (m := req.length) (settle_proper hb) (settle_proper he)
    (by rw [settle_time, settle_time]; exact hbe) (period b e rs).length rs hv hd 0 (fun _ => []) (by rw [ep]; omega) (by rw [eu]; exact hp)
  unfold getStatvar
  rw [if_neg hne, hsc]
  simp only
  rw [if_neg (by rintro ⟨h, _⟩; omega), hcnt]
  split
  · rename_i h; exact absurd h (by simp)
  · rename_i h
    injection h with h
    omega
  · rename_i k _ h
    injection h with h
    subst h
    exact hf

/-- A variable of the block is that of a line of the header exactly if the first 50 characters of the one are the first 100 of the other, small
letters or capitals. -/
theorem C144_case (w s : List Nat) : varWant w = varHead s ↔ List.Forall₂ SameLetter (w.take 50) (s.take 100) := by
  unfold varWant varHead
  exact map_lower_same

example : List.Forall₂ SameLetter ((codes "Runoff").take 50) ((codes "rUnoff").take 100) := by
  rw [← C144_case]
  decide +kernel

/-- Variables of more than 50 characters (and at most 100) can be in a file, but cannot be asked for. -/
theorem C144_names_violated (s w : List Nat) (h : 50 < s.length) : varWant w ≠ varHead s := by
  intro he
  have := congrArg List.length he
  unfold varWant varHead at this
  simp at this
  omega

/-! ### Cases -/

/-- A row at an hour of a day in January 2000. -/
def rowAt (d h : Int) (v : List Rat) : Row := ⟨⟨2000, 1, d⟩, h, 0, 0, v⟩

/-- A header with three columns. -/
def head3 : List Head := [⟨codes "basin_cfs", some 1⟩, ⟨codes "Runoff", some 2⟩, ⟨codes "runoff", some 3⟩]

/-- From 2 January 2000, 0:00 (given as 1 January, 24:00), to 3 January, 24:00. -/
def begin_ : Clock := ⟨2451545, 86400⟩
def end_ : Clock := ⟨2451547, 86400⟩

/-- Rows in the order of time; the third has the hour 24. -/
def rows4 : List Row := [rowAt 1 12 [1, 10, 100], rowAt 2 0 [2, 20, 200], rowAt 3 24 [3, 30, 300], rowAt 4 12 [4, 40, 400]]

/-- The hypotheses of `C144_exact` hold of it, and the terms are those expected. -/
example : begin_.time ≤ end_.time ∧ (∀ h ∈ head3, h.loc ≠ none) ∧ InHead (codes "runoff", 2) head3 ∧ LastCol (codes "runoff", 2) head3 1 ∧
    Readable head3.length (rows4.map some) rows4 ∧ (rows4.Pairwise fun p q => p.time ≤ q.time) ∧
    (period begin_ end_ rows4).map (Row.term 1) = [⟨⟨2451546, 0⟩, 20⟩, ⟨⟨2451548, 0⟩, 30⟩] := by
  refine ⟨by decide +kernel, by simp [head3], ⟨⟨codes "Runoff", some 2⟩, by simp [head3], rfl, by decide +kernel⟩, ⟨⟨_, rfl, rfl, by decide +kernel⟩, ?_⟩,
    ⟨rfl, ?_⟩, by decide +kernel, by decide +kernel⟩
  · intro i h hi hh
    match i, hi with
    | 2, _ =>
      have : h = ⟨codes "runoff", some 3⟩ := by simpa [head3] using hh.symm
      subst this
      simp
    | i + 3, _ => simp [head3] at hh
  · intro r hr
    simp only [rows4, List.mem_cons, List.not_mem_nil, or_false] at hr
    rcases hr with rfl | rfl | rfl | rfl <;> exact ⟨by decide, by unfold Row.Fair rowAt; simp⟩

/-- What the outcome says about the first series. -/
def Outcome.first : Outcome → Option (Nat × List Term)
  | .ok n ser => some (n, ser 0)
  | _ => none

/-- In a file that is not in the order of time, the first pass counts rows behind the end that the second does not reach: the series claims
two terms, and one is stored; the other is whatever the memory holds. -/
theorem C144_unordered_violated :
    (getStatvar [(codes "runoff", 2)] begin_ end_ head3
      ([rowAt 2 0 [2, 20, 200], rowAt 4 12 [4, 40, 400], rowAt 3 0 [3, 30, 300]].map some)).first = some (2, [⟨⟨2451546, 0⟩, 20⟩]) := by
  decide +kernel

/-- The hypotheses of `C144_missing_violated` are met where a variable comes twice. -/
example : getStatvar [(codes "runoff", 2), (codes "snow", 1)] begin_ end_ [⟨codes "runoff", some 2⟩, ⟨codes "RUNOFF", some 2⟩]
    ([rowAt 2 0 [2, 20]].map some) = .undefined := by
  refine C144_missing_violated _ (by decide +kernel) _ _ (by decide +kernel) (by decide +kernel) (by decide +kernel) _ (by simp) (codes "snow", 1)
    (by simp) ?_ (by decide +kernel) _ [rowAt 2 0 [2, 20]] ⟨rfl, ?_⟩ (by decide +kernel)
  · rintro ⟨h, hm, h1, _⟩
    simp only [List.mem_cons, List.not_mem_nil, or_false] at hm
    rcases hm with rfl | rfl <;> simp at h1
  · intro r hr
    simp only [List.mem_cons, List.not_mem_nil, or_false] at hr
    subst hr
    exact ⟨by decide, by unfold Row.Fair rowAt; simp⟩

/-- A block with two series. -/
example : readBlock 500 [.other, .variable (codes "Runoff"), .location 2, .newName (codes "r2"), .other, .variable (codes "runoff"), .location 3,
    .newName (codes "r3")] = some [⟨codes "runoff", 2, codes "r2"⟩, ⟨codes "runoff", 3, codes "r3"⟩] := by decide +kernel

end Verif.TspStv
