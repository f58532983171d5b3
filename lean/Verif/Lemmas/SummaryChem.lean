import Verif.Lemmas.SummaryOut
/-
Lemmas on the columns of `chem.out`.
-/
namespace Verif.Summary
open Verif.EndPer

/-- Descriptors after blanks. -/
def spaced (cols : List (Nat × Ed)) : List Ed := cols.flatMap fun c => [.x c.1, c.2]

/-- The columns of descriptors after blanks. -/
def spots : Nat → List (Nat × Ed) → List (Nat × Nat)
  | _, [] => []
  | pos, c :: r => (pos + c.1, pos + c.1 + c.2.width) :: spots (pos + c.1 + c.2.width) r

theorem fits_not_x (e : Ed) (c : Cell) (h : fits e c = true) : ∀ n, e ≠ .x n := by
  intro n hn
  subst hn
  cases c <;> simp [fits] at h

theorem layout_one (pos : Nat) (e : Ed) (r : List Ed) (c : Cell) (cs : List Cell) (h : fits e c = true) :
    layout pos (e :: r) (c :: cs) = (layout (pos + e.width) r cs).map (⟨pos, pos + e.width, c⟩ :: ·) := by
  rw [layout]
  · rw [if_pos h]
  · exact fits_not_x e c h

theorem layout_spaced (cols : List (Nat × Ed)) (pos : Nat) (cs : List Cell) (h : List.Forall₂ (fun c x => fits c.2 x = true) cols cs) :
    ∃ fs, layout pos (spaced cols) cs = some fs ∧ (fs.map fun f => (f.first, f.last)) = spots pos cols := by
  induction h generalizing pos with
  | nil => exact ⟨[], rfl, rfl⟩
  | @cons c x cols cs hc _ ih =>
    obtain ⟨fs, h1, h2⟩ := ih (pos + c.1 + c.2.width)
    refine ⟨⟨pos + c.1, pos + c.1 + c.2.width, x⟩ :: fs, ?_, by simp [spots, h2]⟩
    have : spaced (c :: cols) = .x c.1 :: c.2 :: spaced cols := by simp [spaced]
    rw [this, layout, layout_one _ _ _ _ _ hc, h1]
    rfl

/-- The date of a line takes ten columns. -/
theorem layout_date (u : Step) (k : Kind) (r : List Ed) (cs : List Cell) :
    ∃ d : List Field, d.length = (chemDate u k).length ∧
      layout 0 (chemDateFormat k ++ r) (chemDate u k ++ cs) = (layout 10 r cs).map (d ++ ·) := by
  rcases k with _ | _ | _ | _ | _ | _
  · refine ⟨[⟨0, 4, .int u.year⟩, ⟨5, 7, .int u.mo⟩, ⟨8, 10, .int u.day⟩], rfl, ?_⟩
    cases h : layout 10 r cs <;> simp [chemDateFormat, chemDate, layout, fits, Ed.width, h]
  · refine ⟨[⟨0, 4, .int u.year⟩, ⟨5, 7, .int u.mo⟩, ⟨8, 10, .int u.day⟩], rfl, ?_⟩
    cases h : layout 10 r cs <;> simp [chemDateFormat, chemDate, dateOf, layout, fits, Ed.width, h]
  · refine ⟨[⟨0, 4, .int u.year⟩, ⟨5, 7, .int u.mo⟩, ⟨8, 10, .int u.day⟩], rfl, ?_⟩
    cases h : layout 10 r cs <;> simp [chemDateFormat, chemDate, dateOf, layout, fits, Ed.width, h]
  · refine ⟨[⟨0, 4, .int u.year⟩, ⟨5, 7, .int u.mo⟩], rfl, ?_⟩
    cases h : layout 10 r cs <;> simp [chemDateFormat, chemDate, dateOf, layout, fits, Ed.width, h]
  · refine ⟨[⟨0, 4, .int u.year⟩], rfl, ?_⟩
    cases h : layout 10 r cs <;> simp [chemDateFormat, chemDate, dateOf, layout, fits, Ed.width, h]
  · refine ⟨[], rfl, ?_⟩
    cases h : layout 10 r cs <;> simp [chemDateFormat, chemDate, dateOf, layout, h]

/-- Real numbers. -/
def Real' (c : Cell) : Prop := c = .undef ∨ ∃ x, c = .num x

theorem real_fits (c : Cell) (h : Real' c) (w : Nat) : fits (.f w) c = true := by
  rcases h with rfl | ⟨x, rfl⟩ <;> rfl

theorem num_real (x : Rat) : Real' (.num x) := Or.inr ⟨x, rfl⟩

theorem quot_real (x y : Rat) : Real' (quot x y) := by
  unfold quot
  split_ifs
  · exact Or.inl rfl
  · exact num_real _

/-- Qualities are real numbers. -/
def ChemRow.Reals (r : ChemRow) : Prop := ∀ p, Real' (r.prop p)

theorem unit_reals (c : ChemStep) : (unitChem c).Reals := fun _ => num_real _

theorem per_reals (c : ChemStep) (a : Acc) : (perChem c a).Reals := fun _ => quot_real _ _

/-- Columns of a line for the outlet. -/
def outletCols (iso : List Bool) (k : Kind) : List (Nat × Ed) :=
  List.replicate 3 (2, .f 16) ++ iso.map fun b => (if b || k.isSome then 2 else 56, .f 16)

theorem flatMap_congr' {α β} (l : List α) (f g : α → List β) (h : ∀ x, f x = g x) : l.flatMap f = l.flatMap g := by
  have : f = g := funext h
  rw [this]

theorem outletFormat_eq (iso : List Bool) (k : Kind) : outletFormat iso k = chemDateFormat k ++ spaced (outletCols iso k) := by
  unfold outletFormat spaced outletCols rep
  rw [List.append_assoc]
  congr 1
  rw [List.flatMap_append]
  congr 1
  rw [List.flatMap_map]
  apply flatMap_congr'
  intro b
  split_ifs <;> rfl

theorem forall₂_append' {α β} {R : α → β → Prop} {a a' : List α} {b b' : List β} (h : List.Forall₂ R a b) (h' : List.Forall₂ R a' b') :
    List.Forall₂ R (a ++ a') (b ++ b') := by
  induction h with
  | nil => exact h'
  | cons h1 _ ih => exact .cons h1 ih

theorem outlet_fits (iso : List Bool) (k : Kind) (r : ChemRow) (hr : r.Reals) :
    List.Forall₂ (fun c x => fits c.2 x = true) (outletCols iso k) (r.outlet iso) := by
  unfold outletCols ChemRow.outlet
  apply forall₂_append'
  · exact .cons rfl (.cons (real_fits _ (hr _) _) (.cons (real_fits _ (hr _) _) .nil))
  · generalize 0 = j
    induction iso generalizing j with
    | nil => exact .nil
    | cons b iso ih =>
      simp only [List.map_cons, List.zipIdx_cons]
      refine .cons ?_ (ih (j + 1))
      show fits (.f 16) _ = true
      cases b
      · rfl
      · exact real_fits _ (hr _) _

/-- Columns of a line for the basin. -/
def basinCols (iso : List Bool) (noIn : Bool) : List (Nat × Ed) :=
  let inp : Ed := if noIn then .a 16 else .f 16
  [(2, inp), (2, .f 16), (2, inp), (2, .f 16)] ++ List.replicate 4 (2, .f 16) ++
    iso.flatMap fun b => [(2, if b then inp else .f 16), (2, .f 16), (2, .f 16), (2, .f 16)]

theorem basinFormat_eq (iso : List Bool) (noIn : Bool) (k : Kind) :
    basinFormat iso noIn k = chemDateFormat k ++ spaced (basinCols iso noIn) := by
  unfold basinFormat spaced basinCols rep
  simp only [List.append_assoc]
  congr 1
  simp only [List.flatMap_append, List.flatMap_assoc]
  rfl

theorem input_fits (r : ChemRow) (hr : r.Reals) (p : Quality) :
    fits (if decide (r.water .inp = 0) then .a 16 else .f 16) (r.input p) = true := by
  unfold ChemRow.input
  by_cases h : r.water .inp = 0
  · simp [h, fits]
  · simp only [h, decide_false, Bool.false_eq_true, if_false]
    exact real_fits _ (hr _) _

theorem basin_fits (iso : List Bool) (r : ChemRow) (hr : r.Reals) :
    List.Forall₂ (fun c x => fits c.2 x = true) (basinCols iso (decide (r.water .inp = 0))) (r.basin iso) := by
  unfold basinCols ChemRow.basin
  apply forall₂_append'
  · exact .cons (input_fits r hr _) (.cons (real_fits _ (hr _) _) (.cons (input_fits r hr _) (.cons (real_fits _ (hr _) _)
      (.cons rfl (.cons rfl (.cons rfl (.cons rfl .nil)))))))
  · generalize 0 = j
    induction iso generalizing j with
    | nil => exact .nil
    | cons b iso ih =>
      simp only [List.flatMap_cons, List.zipIdx_cons]
      refine forall₂_append' ?_ (ih (j + 1))
      cases b
      · exact .cons rfl (.cons rfl (.cons rfl (.cons rfl .nil)))
      · exact .cons (input_fits r hr _) (.cons (real_fits _ (hr _) _) (.cons (real_fits _ (hr _) _) (.cons rfl .nil)))

/-- A line for the outlet is written, with its columns. -/
theorem outlet_line (pt : Int) (hp : pt < 2) (iso : List Bool) (u : Step) (k : Kind) (r : ChemRow) (hr : r.Reals) :
    ∃ d fs : List Field, chemLine pt iso u k r = some (d ++ fs) ∧ d.length = (chemDate u k).length ∧
      (fs.map fun f => (f.first, f.last)) = spots 10 (outletCols iso k) ∧ fs.map (·.cell) = r.outlet iso := by
  obtain ⟨fs, h1, h2⟩ := layout_spaced _ 10 _ (outlet_fits iso k r hr)
  obtain ⟨d, h3, h4⟩ := layout_date u k (spaced (outletCols iso k)) (r.outlet iso)
  refine ⟨d, fs, ?_, h3, h2, layout_cells _ _ _ _ h1⟩
  unfold chemLine
  rw [if_pos hp, outletFormat_eq, h4, h1]
  rfl

/-- A line for the basin is written, with its columns. -/
theorem basin_line (pt : Int) (hp : ¬ pt < 2) (iso : List Bool) (u : Step) (k : Kind) (r : ChemRow) (hr : r.Reals) :
    ∃ d fs : List Field, chemLine pt iso u k r = some (d ++ fs) ∧ d.length = (chemDate u k).length ∧
      (fs.map fun f => (f.first, f.last)) = spots 10 (basinCols iso (decide (r.water .inp = 0))) ∧ fs.map (·.cell) = r.basin iso := by
  obtain ⟨fs, h1, h2⟩ := layout_spaced _ 10 _ (basin_fits iso r hr)
  obtain ⟨d, h3, h4⟩ := layout_date u k (spaced (basinCols iso (decide (r.water .inp = 0)))) (r.basin iso)
  refine ⟨d, fs, ?_, h3, h2, layout_cells _ _ _ _ h1⟩
  unfold chemLine
  rw [if_neg hp, basinFormat_eq, h4, h1]
  rfl

/-- Columns of 16 after 2 blanks. -/
theorem spots_even (cols : List (Nat × Ed)) (h : ∀ c ∈ cols, c.1 = 2 ∧ c.2.width = 16) (pos : Nat) :
    spots pos cols = (List.range cols.length).map fun k => (pos + 18 * k + 2, pos + 18 * k + 18) := by
  induction cols generalizing pos with
  | nil => rfl
  | cons c cols ih =>
    obtain ⟨h1, h2⟩ := h c (by simp)
    rw [spots, h1, h2, ih (fun x hx => h x (by simp [hx])), List.length_cons, List.range_succ_eq_map, List.map_cons, List.map_map]
    congr 1
    apply List.map_congr_left
    intro k _
    simp only [Function.comp, Nat.succ_eq_add_one, Prod.mk.injEq]
    omega

theorem outletCols_len (iso : List Bool) (k : Kind) : (outletCols iso k).length = iso.length + 3 := by
  simp [outletCols]

theorem basinCols_len (iso : List Bool) (b : Bool) : (basinCols iso b).length = 4 * iso.length + 8 := by
  unfold basinCols
  simp only [List.length_append, List.length_cons, List.length_nil, List.length_replicate, List.length_flatMap]
  have : (iso.map fun _ => 4).sum = 4 * iso.length := by
    induction iso with
    | nil => rfl
    | cons a l ih => simp only [List.map_cons, List.sum_cons, ih, List.length_cons]; omega
  simp only [this]
  omega

end Verif.Summary
