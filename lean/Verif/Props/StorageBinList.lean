import Verif.Lemmas.StorageBinList
/-
C26: number lists of DELETE (and DUMP) and COPY mean what the manual says.
-/
namespace Verif.Sbl
open Verif.CText

/-- C26, lists: a line of numbers and ranges, in either order and with negative numbers, adds exactly the
numbers listed to what the item already had. -/
theorem C26_ranges (rs : List Rng) (hok : ∀ r ∈ rs, r.ok) (it : Item) :
    ∃ it', readTokens it (rs.map Rng.text) = some (it', 0) ∧ it'.defined = true ∧
      ∀ x, x ∈ it'.numbers ↔ x ∈ it.numbers ∨ ∃ r ∈ rs, r.has x := by
  obtain ⟨ns, h1, _, h3⟩ := readTokens_texts rs hok it
  refine ⟨_, h1, rfl, ?_⟩
  intro x
  simp only [List.mem_append, h3]
  exact or_comm

example : [Rng.range 5 (-2), .one 12, .range (-7) (-9)].map (String.ofList ∘ Rng.text) = ["5--2", "12", "-7--9"] ∧
    (∀ r ∈ [Rng.range 5 (-2), .one 12, .range (-7) (-9)], r.ok) := by
  refine ⟨by decide +kernel, ?_⟩
  intro r hr
  simp only [List.mem_cons, List.not_mem_nil, or_false] at hr
  rcases hr with rfl | rfl | rfl <;> simp [Rng.ok]

/-- C26, "everything": adding a number of a cell list to an item that means everything leaves it
unchanged. -/
theorem C26_everything_kept (it : Item) (h : it.defined = true ∧ it.numbers = []) (ns : List Int) :
    ns.foldl augmentInt it = it := foldl_augmentInt_all h ns

example : [3, 4].foldl augmentInt ⟨[], true⟩ = ⟨[], true⟩ := by decide

/-- C26, DELETE: for every request written with lists of numbers and ranges, exactly the selected
entities of kind `k` are removed, the others stay.  Partial: among the lists for `k` (and `-all`) no
empty list is mixed with lists of numbers, and likewise among the lists of cells (see
`C26_mixed_violated`); the numbers are C `int`s less than the largest one. -/
theorem C26_delete_partial {V} (es : List Entry) (ls : List Line) (hreq : IsRequest none es ls)
    (hok : ∀ e ∈ es, ∀ r ∈ e.list, r.ok) (k : Kind)
    (hA : ((∀ e ∈ es, e.tg ≠ .all) ∧ ∀ e ∈ es, e.tg = .kind k → e.list ≠ []) ∨
      (∀ e ∈ es, e.tg = .kind k → e.list = []))
    (hB : (∀ e ∈ es, e.tg = .cell → e.list ≠ []) ∨ (∀ e ∈ es, e.tg = .cell → e.list = []))
    (m : Store V) :
    ∃ st, read .init ls = some (st, 0) ∧
      (∀ x, Selects es k x → (deleteEntities st m).2 k x = none) ∧
      (∀ x, ¬ Selects es k x → (deleteEntities st m).2 k x = m k x) ∧
      (deleteEntities st m).1.bins = St.init.bins := by
  obtain ⟨st1, h1, h2⟩ := readLines_steps hreq hok { St.init with cell := .empty }
  refine ⟨useCells st1, by simp [read, h1], ?_⟩
  have key : ∀ x, Selected ((useCells st1).bins k) x ↔ Selects es k x := by
    intro x
    -- what the cell lists contributed
    have hcell : (∃ e ∈ es, e.tg = .cell ∧ e.list = []) ∧ st1.cell.defined = true ∧ st1.cell.numbers = [] ∨
        (∀ e ∈ es, e.tg = .cell → e.list ≠ []) ∧ (st1.cell.defined = true ↔ st1.cell.numbers ≠ []) ∧
        ∀ x, x ∈ st1.cell.numbers ↔ ∃ e ∈ es, e.tg = .cell ∧ ∃ r ∈ e.list, r.has x := by
      rcases hB with hB | hB
      · obtain ⟨ns, c1, c2, c3⟩ := steps_cell_numbers h2 hB
        have c1' : st1.cell.numbers = ns := by simpa [Item.empty] using c1
        exact .inr ⟨hB, by rw [c2, c1']; simp [Item.empty], by rw [c1']; exact c3⟩
      · obtain ⟨c1, c2⟩ := steps_cell_all h2 hB rfl
        by_cases hex : ∃ e ∈ es, e.tg = .cell
        · obtain ⟨e, he, hc⟩ := hex
          exact .inl ⟨⟨e, he, hc, hB e he hc⟩, c2.2 (.inr ⟨e, he, hc⟩), c1⟩
        · refine .inr ⟨fun e he hc => absurd ⟨e, he, hc⟩ hex, ?_, ?_⟩
          · rw [c2, c1]; simp [Item.empty, hex]
          · intro x; rw [c1]
            simp only [List.not_mem_nil, false_iff]
            rintro ⟨e, he, hc, _⟩; exact hex ⟨e, he, hc⟩
    -- what the lists of kind `k` contributed
    have hown : (∃ e ∈ es, e.tg = .all ∨ e.tg = .kind k ∧ e.list = []) ∧
          (st1.bins k).defined = true ∧ (st1.bins k).numbers = [] ∨
        (∀ e ∈ es, e.tg ≠ .all) ∧ (∀ e ∈ es, e.tg = .kind k → e.list ≠ []) ∧
        ((st1.bins k).defined = true ↔ (st1.bins k).numbers ≠ []) ∧
        ∀ x, x ∈ (st1.bins k).numbers ↔ ∃ e ∈ es, e.tg = .kind k ∧ ∃ r ∈ e.list, r.has x := by
      rcases hA with ⟨ha, hn⟩ | hn
      · obtain ⟨ns, c1, c2, c3⟩ := steps_numbers h2 k ha hn
        have c1' : (st1.bins k).numbers = ns := by simpa [Item.empty, St.init] using c1
        exact .inr ⟨ha, hn, by rw [c2, c1']; simp [Item.empty, St.init], by rw [c1']; exact c3⟩
      · obtain ⟨c1, c2⟩ := steps_all h2 k hn rfl
        by_cases hex : ∃ e ∈ es, e.tg = .all ∨ e.tg = .kind k
        · obtain ⟨e, he, hc⟩ := hex
          refine .inl ⟨⟨e, he, hc.imp_right fun h => ⟨h, hn e he h⟩⟩, c2.2 (.inr ⟨e, he, hc⟩), c1⟩
        · refine .inr ⟨fun e he hc => hex ⟨e, he, .inl hc⟩, fun e he hc => absurd ⟨e, he, .inr hc⟩ hex, ?_, ?_⟩
          · rw [c2, c1]; simp [Item.empty, St.init, hex]
          · intro x; rw [c1]
            simp only [List.not_mem_nil, false_iff]
            rintro ⟨e, he, hc, _⟩; exact hex ⟨e, he, .inr hc⟩
    unfold useCells
    rcases hcell with ⟨⟨e, he, hc, hl⟩, c1, c2⟩ | ⟨c0, c1, c2⟩
    · rw [if_pos c1, if_pos c2]
      constructor
      · intro _; exact ⟨e, he, .inr ⟨.inr hc, .inl hl⟩⟩
      · intro _; exact ⟨rfl, .inl rfl⟩
    · rcases hown with ⟨⟨e, he, hc⟩, o1, o2⟩ | ⟨o0, o00, o1, o2⟩
      · have hsel : Selects es k x := by
          refine ⟨e, he, hc.imp_right fun h => ⟨.inl h.1, .inl h.2⟩⟩
        have : Selected (st1.bins k) x := ⟨o1, .inl o2⟩
        by_cases hd : st1.cell.defined = true
        · rw [if_pos hd, if_neg (c1.1 hd)]
          simp only [transferAll, foldl_augmentInt_all ⟨o1, o2⟩]
          exact ⟨fun _ => hsel, fun _ => this⟩
        · rw [if_neg hd]
          exact ⟨fun _ => hsel, fun _ => this⟩
      · have hsel : Selects es k x ↔ x ∈ (st1.bins k).numbers ∨ x ∈ st1.cell.numbers := by
          rw [o2, c2]
          constructor
          · rintro ⟨e, he, h⟩
            rcases h with h | ⟨h | h, h'⟩
            · exact absurd h (o0 e he)
            · exact .inl ⟨e, he, h, h'.resolve_left (o00 e he h)⟩
            · exact .inr ⟨e, he, h, h'.resolve_left (c0 e he h)⟩
          · rintro (⟨e, he, h, h'⟩ | ⟨e, he, h, h'⟩)
            · exact ⟨e, he, .inr ⟨.inl h, .inr h'⟩⟩
            · exact ⟨e, he, .inr ⟨.inr h, .inr h'⟩⟩
        rw [hsel]
        by_cases hd : st1.cell.defined = true
        · rw [if_pos hd, if_neg (c1.1 hd)]
          have hna : ¬ ((st1.bins k).defined = true ∧ (st1.bins k).numbers = []) := fun h => o1.1 h.1 h.2
          obtain ⟨f1, f2, _⟩ := foldl_augmentInt hna st1.cell.numbers
          simp only [transferAll, Selected]
          have hne := c1.1 hd
          rw [f2 hne, f1]
          simp only [true_and]
          constructor
          · rintro (h | h)
            · exfalso
              cases hc : st1.cell.numbers with
              | nil => exact hne hc
              | cons y ys =>
                have := (f1 y).2 (.inl (by rw [hc]; simp))
                rw [h] at this; simp at this
            · exact h.symm
          · intro h; exact .inr h.symm
        · rw [if_neg hd]
          have hcn : st1.cell.numbers = [] := by
            by_contra h; exact hd (c1.2 h)
          rw [hcn]
          simp only [List.not_mem_nil, or_false, Selected]
          constructor
          · rintro ⟨h, h' | h'⟩
            · exact absurd h' (o1.1 h)
            · exact h'
          · intro h
            exact ⟨o1.2 (List.ne_nil_of_mem h), .inr h⟩
  refine ⟨fun x hx => (deleteKind_spec _ _ x).1 ((key x).2 hx), fun x hx => (deleteKind_spec _ _ x).2 fun h => hx ((key x).1 h), ?_⟩
  rfl

/-- A request meeting the hypotheses: `-Solution 3 7-5` continued by `-2--4`, and `-cells 100`. -/
def demoReq : List Entry :=
  [⟨.kind .solution, [.one 3, .range 7 5]⟩, ⟨.kind .solution, [.range (-2) (-4)]⟩, ⟨.cell, [.one 100]⟩]

def demoLines : List Line :=
  [.text "-Solution 3 7-5".toList, .text "   -2--4 ".toList, .text "\t-cells 100".toList, .keyword]

example : IsRequest none demoReq demoLines := by
  refine .line _ _ _ _ _ ⟨[], [' '], "Solution".toList, "solution", [(['3'], [' ']), (['7', '-', '5'], [])],
    by simp, by decide +kernel, by decide +kernel, by decide +kernel, by simp [ProperLayout]; decide +kernel,
    by decide +kernel, by decide +kernel⟩ ?_
  refine .more ⟨.kind .solution, [.range (-2) (-4)]⟩ _ _ _ ⟨[' ', ' ', ' '], [("-2--4".toList, [' '])], by decide +kernel,
    by simp [ProperLayout]; decide +kernel, by decide +kernel, by simp, by decide +kernel⟩ ?_
  refine .line _ _ _ _ _ ⟨['\t'], [' '], "cells".toList, "cells", [("100".toList, [])],
    by decide +kernel, by decide +kernel, by decide +kernel, by decide +kernel, by simp [ProperLayout]; decide +kernel,
    by decide +kernel, by decide +kernel⟩ ?_
  exact .stop _ _

/-- The solutions 1, 3, 5, 7, 100 of the demonstration store. -/
def demoStore : Store Nat := fun k x => if k = .solution ∧ x ∈ [1, 3, 5, 7, 100] then some x.toNat else none

example : ((read .init demoLines).map fun p =>
    [1, 3, 5, 7, 100].map ((deleteEntities p.1 demoStore).2 .solution)) = some [some 1, none, none, none, none] := by
  decide +kernel

/-- C26, an empty list mixed with a list of numbers does not select everything: after `-solution` and
`-solution 5` the solution 7 is still there. -/
theorem C26_mixed_violated :
    ∃ (es : List Entry) (ls : List Line), IsRequest none es ls ∧ Selects es .solution 7 ∧
      ((read .init ls).map fun p => (deleteEntities p.1 demoStore).2 .solution 7) = some (some 7) := by
  refine ⟨[⟨.kind .solution, []⟩, ⟨.kind .solution, [.one 5]⟩],
    [.text "-solution".toList, .text "-solution 5".toList], ?_, ?_, by decide +kernel⟩
  · refine .line _ _ _ _ _ ⟨[], [], "solution".toList, "solution", [], by simp, by decide +kernel, by decide +kernel,
      by decide +kernel, by simp [ProperLayout]; decide +kernel, by decide +kernel, by decide +kernel⟩ ?_
    refine .line _ _ _ _ _ ⟨[], [' '], "solution".toList, "solution", [(['5'], [])], by simp, by decide +kernel,
      by decide +kernel, by decide +kernel, by simp [ProperLayout]; decide +kernel, by decide +kernel, by decide +kernel⟩ ?_
    exact .nil _
  · exact ⟨⟨.kind .solution, []⟩, by simp, .inr ⟨.inl rfl, .inl rfl⟩⟩

/-- C26, a number that is not a C `int` selects everything: `-solution 99999999999` removes solution 1,
without an error. -/
theorem C26_out_of_range_violated :
    (read .init [.text "-solution 99999999999".toList]).map (fun p =>
      ((deleteEntities p.1 demoStore).2 .solution 1, p.2)) = some (none, 0) ∧
    demoStore .solution 1 = some 1 ∧
    ¬ Selects [⟨.kind .solution, [.one 99999999999]⟩] .solution 1 := by
  refine ⟨by decide +kernel, by decide +kernel, ?_⟩
  rintro ⟨e, he, h⟩
  simp only [List.mem_singleton] at he
  subst he
  simp [Rng.has] at h

/-- C26, a range up to the largest `int` is undefined behaviour (the loop variable overflows). -/
theorem C26_largest_violated : (read .init [.text "-solution 1-2147483647".toList]).isNone = true := by
  decide +kernel

/-- C26, COPY: every sequence of instructions does what it says to the entities of a kind.  Partial: each
range is ascending, does not contain both negative and non-negative numbers and does not end at -1. -/
theorem C26_copy_partial {V} (renum : Int → V → V) (cs : List (Int × Int × Int)) (hok : ∀ c ∈ cs, CopyOk c)
    (m : Int → Option V) : copyAll renum m cs = some (cs.foldl (copyMeaning renum) m) := by
  induction cs generalizing m with
  | nil => rfl
  | cons c cs ih =>
    obtain ⟨src, a, b⟩ := c
    obtain ⟨h1, h2, h3, h4, h5, h6⟩ := hok (src, a, b) (by simp)
    obtain ⟨m', e, hm'⟩ := copyOne_spec renum m src a b h1 h2 h3 h4 h5 h6
    have : m' = copyMeaning renum m (src, a, b) := by
      funext x
      obtain ⟨k1, k2⟩ := hm' x
      unfold copyMeaning
      simp only
      cases hs : m src with
      | none => exact k2 (.inl hs)
      | some v =>
        simp only
        split
        · rename_i h; exact k1 v hs h.1 h.2.1 h.2.2
        · rename_i h
          refine k2 (.inr ?_)
          by_cases hx : x = src
          · exact .inr hx
          · exact .inl fun h' => h ⟨h'.1, h'.2, hx⟩
    rw [copyAll, e, Option.bind_some, ih fun d hd => hok d (List.mem_cons_of_mem _ hd), this]
    rfl

example : ∀ c ∈ [((3 : Int), (5 : Int), (9 : Int)), (5, 1, 1), (1, -9, -4)], CopyOk c := by
  intro c hc
  simp only [List.mem_cons, List.not_mem_nil, or_false] at hc
  rcases hc with rfl | rfl | rfl <;> simp [CopyOk]

/-- C26, COPY: the numbers written are the numbers used. -/
theorem C26_copy_targets (r : Rng) (h : r.ok) :
    copyTargets r.text = match r with | .one a => some (a, a) | .range a b => some (a, b) := by
  cases r with
  | one a => exact copyTargets_one h.1 (by have := h.2; unfold intMax; omega)
  | range a b =>
    exact copyTargets_range h.1 (by have := h.2.1; unfold intMax; omega) h.2.2.1 (by have := h.2.2.2; unfold intMax; omega)

example : copyTargets "-5--3".toList = some (-5, -3) := by decide +kernel

/-- C26, COPY onto a range that contains negative and other numbers copies nothing. -/
theorem C26_copy_zero_violated :
    ((copyOne (fun _ v => v) (demoStore .solution) (1, -2, 2)).map fun m => m 2) = some none ∧
    copyMeaning (fun _ v => v) (demoStore .solution) (1, -2, 2) 2 = some 1 := by
  decide +kernel

/-- C26, COPY onto a range ending at -1 never ends. -/
theorem C26_copy_endless_violated :
    (copyOne (fun _ v => v) (demoStore .solution) (1, -3, -1)).isNone = true := by decide +kernel

end Verif.Sbl
