import Verif.Lemmas.TspSample
/-
C143: series from site sample files in TSPROC.
-/
namespace Verif.TspSsf
open Verif.Tsp Verif.TspText

/-- GET_MUL_SERIES_SSF: if every site is in the order of time, each series has exactly the terms of its site in the period, both ends included
and rows with `x` left out, in the order of the file; the rows of the sites may be mixed.  A site without such terms is an error. -/
theorem C143_many (spec : Nat) (sites : List (List Nat)) (hn : sites.Nodup) (h0 : [] ∉ sites) (b e : Clock) (hb : b.Proper) (he : e.Proper)
    (ls : List SLine) (hs : ∀ w, SLine.short w ∉ ls) (hr : ∀ site ∈ sites, Readable spec site ls) (ho : ∀ site ∈ sites, InOrder spec site ls) :
    ((∀ site ∈ sites, within b e (termsOf spec site ls) ≠ []) → ∃ ser, getMany spec sites b e ls = .ok ser ∧
      ∀ i site, sites[i]? = some site → ser i = within b e (termsOf spec site ls)) ∧
    ((∃ site ∈ sites, within b e (termsOf spec site ls) = []) → getMany spec sites b e ls = .error) := by
  obtain ⟨n, hc⟩ := count_some (b := b) (e := e) ls ⟨[], none⟩ (fun _ => 0) (by simp) hs hr
  obtain ⟨ser, hf, hl⟩ := fill_of_count ls ⟨[], none⟩ _ n (fun _ => []) hc (by simp)
  have hx : ∀ i site, sites[i]? = some site → ser i = within b e (termsOf spec site ls) := by
    intro i site hi
    have := fill_exact hn hb he n ls ⟨[], none⟩ (fun _ => []) ser (by simp) (fun _ hm => absurd hm h0) ho (fun _ _ _ => Or.inl rfl) hf i site hi
    simpa using this
  unfold getMany
  rw [if_neg (by simpa using hn), hc]
  simp only
  constructor
  · intro hne
    rw [if_neg]
    · exact ⟨ser, hf, hx⟩
    · rintro ⟨j, hj, h⟩
      rw [← hl, hx j sites[j] (List.getElem?_eq_getElem hj), List.length_eq_zero_iff] at h
      exact hne _ (List.getElem_mem hj) h
  · rintro ⟨site, hm, h⟩
    rw [if_pos]
    obtain ⟨j, hj, rfl⟩ := List.getElem_of_mem hm
    refine ⟨j, hj, ?_⟩
    rw [← hl, hx j sites[j] (List.getElem?_eq_getElem hj), h]
    rfl

/-- Whatever the file: the second pass never writes outside the series that were made after the first, and fills them. -/
theorem C143_fits (spec : Nat) (sites : List (List Nat)) (b e : Clock) (ls : List SLine) :
    getMany spec sites b e ls ≠ .overflow ∧
    ∀ ser, getMany spec sites b e ls = .ok ser → ∃ n, countMany spec sites b e ls ⟨[], none⟩ (fun _ => 0) = some n ∧
      ∀ j, (ser j).length = n j := by
  unfold getMany
  split
  · exact ⟨by simp, by simp⟩
  · split
    · exact ⟨by simp, by simp⟩
    · rename_i n hc
      obtain ⟨ser, hf, hl⟩ := fill_of_count ls ⟨[], none⟩ _ n (fun _ => []) hc (by simp)
      split
      · exact ⟨by simp, by simp⟩
      · rw [hf]
        refine ⟨by simp, ?_⟩
        intro ser' h
        injection h with h
        subst h
        exact ⟨n, hc, hl⟩

/-- Whatever the file: the terms of a series are rows of its site without `x`, in their order, none after the end of the period, the first
not before its beginning; and there is at least one. -/
theorem C143_only (spec : Nat) (sites : List (List Nat)) (b e : Clock) (hb : b.Proper) (he : e.Proper) (ls : List SLine)
    (ser : Nat → List Term) (h : getMany spec sites b e ls = .ok ser) (i : Nat) (site : List Nat) (hi : sites[i]? = some site) :
    (ser i).Sublist (termsOf spec site ls) ∧ (∀ t ∈ ser i, t.at_.time ≤ e.time) ∧ ∃ t, (ser i).head? = some t ∧ b.time ≤ t.at_.time := by
  obtain ⟨n, hc, hl⟩ := (C143_fits spec sites b e ls).2 ser h
  unfold getMany at h
  split at h
  · exact absurd h (by simp)
  · rename_i hn
    have hn : sites.Nodup := by simpa using hn
    rw [hc] at h
    simp only at h
    split at h
    · exact absurd h (by simp)
    · rename_i hz
      obtain ⟨w, w1, w2, w3, w4⟩ := fill_sound hn n ls ⟨[], none⟩ (fun _ => []) ser (by simp) h i site hi
      rw [List.nil_append] at w1
      subst w1
      refine ⟨w2, ?_, ?_⟩
      · intro t ht
        have hp := termsOf_proper (w2.subset ht)
        by_contra hlt
        have := (later_time hp he).2 (by omega)
        rw [w3 t ht] at this
        exact absurd this (by simp)
      · obtain ⟨hlt, _⟩ := List.getElem?_eq_some_iff.1 hi
        cases hs : ser i with
        | nil => exact absurd ⟨i, hlt, by rw [← hl, hs]; rfl⟩ hz
        | cons t q =>
          refine ⟨t, rfl, ?_⟩
          have hp := termsOf_proper (w2.subset (by rw [hs]; simp : t ∈ ser i))
          by_contra hbt
          have := (later_time hb hp).2 (by omega)
          rw [w4 rfl t (by rw [hs]; rfl)] at this
          exact absurd this (by simp)

/-- GET_SERIES_SSF: the same for one site, if its rows are together. -/
theorem C143_one (spec : Nat) (site : List Nat) (b e : Clock) (hb : b.Proper) (he : e.Proper) (ls : List SLine)
    (hr : Readable spec site ls) (ho : InOrder spec site ls) (ht : Together site ls) :
    getOne spec site b e ls = if within b e (termsOf spec site ls) = [] then .error else .series (within b e (termsOf spec site ls)) := by
  have hf := firstGroup_together (spec := spec) ht hr.1
  have hw : (within b e (termsOf spec site ls)).length ≤ (termsOf spec site ls).length := List.length_filter_le _ _
  have hq := readOne_eq hb he (firstGroup site ls 0) ls [] hr ho (by simp) (Or.inl rfl)
  rw [if_pos (by simp; omega), List.nil_append] at hq
  unfold getOne
  simp only [hq, Outcome.series.injEq]
  by_cases h0 : firstGroup site ls 0 = 0
  · rw [if_pos h0, if_pos]
    exact List.length_eq_zero_iff.1 (by omega)
  · rw [if_neg h0]

/-- Where the rows of the site are in more than one place, GET_SERIES_SSF makes room for those of the first place only and then reads all:
as soon as more terms of the period have to be stored, it writes outside the temporary series. -/
theorem C143_one_violated (spec : Nat) (site : List Nat) (b e : Clock) (hb : b.Proper) (he : e.Proper) (ls : List SLine)
    (hr : Readable spec site ls) (ho : InOrder spec site ls) (h0 : 0 < firstGroup site ls 0)
    (h : firstGroup site ls 0 < (within b e (termsOf spec site ls)).length) : getOne spec site b e ls = .overflow := by
  have hq := readOne_eq hb he (firstGroup site ls 0) ls [] hr ho (by simp) (Or.inl rfl)
  rw [if_neg (by simp; omega)] at hq
  unfold getOne
  simp only [hq]
  rw [if_neg (by omega), if_neg (by simp)]

/-! ### Cases -/

/-- A row of a file. -/
def rowAt (site date : String) (v : Rat) (rest : String := "") : SLine :=
  .row ⟨codes site, codes date, codes "12:00:00", some v, codes rest⟩

/-- Two sites by turns. -/
def mixed : List SLine :=
  [rowAt "Gage1" "01/01/2000" 1, rowAt "gage2" "01/01/2000" 5, .blank, rowAt "GAGE1" "02/01/2000" 2 " x", rowAt "gage1" "03/01/2000" 3,
   rowAt "gage2" "03/01/2000" 6, rowAt "gage1" "04/01/2000" 4, rowAt "gage2" "05/01/2000" 7]

/-- The period from 1 January, 0:00, to 4 January 2000, 23:00. -/
def from_ : Clock := ⟨2451545, 0⟩
def upTo : Clock := ⟨2451548, 82800⟩

instance (spec : Nat) (site : List Nat) (ls : List SLine) : Decidable (InOrder spec site ls) := by unfold InOrder; infer_instance

/-- The hypotheses of `C143_many` hold of it; the terms are those expected. -/
example : [codes "gage1", codes "gage2"].Nodup ∧ from_.Proper ∧ upTo.Proper ∧ (∀ s ∈ [codes "gage1", codes "gage2"], InOrder 1 s mixed) ∧
    (∀ s ∈ [codes "gage1", codes "gage2"], ∀ r ∈ rowsOf s mixed, (rowTerm 1 r).isSome = true) ∧
    (within from_ upTo (termsOf 1 (codes "gage1") mixed)).map Term.val = [1, 3, 4] ∧
    (within from_ upTo (termsOf 1 (codes "gage2") mixed)).map Term.val = [5, 6] := by
  refine ⟨by decide +kernel, by unfold Clock.Proper from_; decide, by unfold Clock.Proper upTo; decide, ?_, ?_, ?_, ?_⟩ <;> decide +kernel

/-- The same file with GET_SERIES_SSF: there is room for one term, and three are written. -/
example : firstGroup (codes "gage1") mixed 0 = 1 ∧ getOne 1 (codes "gage1") from_ upTo mixed = .overflow := by decide +kernel

/-- A file with the rows of a site together. -/
example : getOne 1 (codes "gage1") from_ upTo
      [rowAt "other" "01/01/2000" 9, rowAt "gage1" "01/01/2000" 1, rowAt "gage1" "02/01/2000" 2, rowAt "other" "02/01/2000" 9] =
    .series [⟨⟨2451545, 43200⟩, 1⟩, ⟨⟨2451546, 43200⟩, 2⟩] := by decide +kernel

/-- Where a site is not in the order of time, terms before the period are taken once the series has begun, and terms of the period are lost
after one behind its end. -/
theorem C143_unordered_violated :
    getOne 1 (codes "gage1") from_ upTo [rowAt "gage1" "02/01/2000" 1, rowAt "gage1" "31/12/1999" 2] =
      .series [⟨⟨2451546, 43200⟩, 1⟩, ⟨⟨2451544, 43200⟩, 2⟩] ∧
    getOne 1 (codes "gage1") from_ upTo [rowAt "gage1" "02/01/2000" 1, rowAt "gage1" "06/01/2000" 2, rowAt "gage1" "03/01/2000" 3] =
      .series [⟨⟨2451546, 43200⟩, 1⟩] := by decide +kernel

/-- A row with the mark `X` counts as a row without a mark. -/
theorem C143_mark_violated (r : Row) (s : List Nat) :
    marked { r with rest := 32 :: 88 :: s } = false ∧ marked { r with rest := 32 :: 120 :: s } = true := by
  constructor <;> simp [marked]

/-- Sites of more than 18 characters that differ only after the 18th are the same site to the program. -/
theorem C143_names_violated (s t u : List Nat) (h : s.length = 18) : name (s ++ t) = name (s ++ u) := by
  unfold name
  rw [← h, List.take_left, List.take_left]

/-- Two texts are the same site exactly if their first 18 characters are the same, small letters or capitals. -/
theorem C143_case (s t : List Nat) : name s = name t ↔ List.Forall₂ SameLetter (s.take 18) (t.take 18) := by
  unfold name
  exact map_lower_same

example : List.Forall₂ SameLetter ((codes "Gage Z1").take 18) ((codes "gaGe z1").take 18) := by
  rw [← C143_case]
  decide +kernel

/-- A line with less than four words is an error wherever it is, for whatever site. -/
theorem C143_short (spec : Nat) (sites : List (List Nat)) (b e : Clock) (p q : List SLine) (w : List Nat) :
    getMany spec sites b e (p ++ .short w :: q) = .error := by
  have key : ∀ (p : List SLine) (s : Scan) (n : Nat → Nat), countMany spec sites b e (p ++ .short w :: q) s n = none := by
    intro p
    induction p with
    | nil => intro s n; rw [List.nil_append, countMany]; rfl
    | cons l p ih =>
      intro s n
      rw [List.cons_append, countMany]
      split
      · rfl
      · exact ih _ _
      · exact ih _ _
  unfold getMany
  rw [key]
  split <;> rfl

end Verif.TspSsf
