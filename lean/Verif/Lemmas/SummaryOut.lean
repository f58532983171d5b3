import Verif.Lemmas.Summary
/-
Lemmas on the lines of the summary module.
-/
namespace Verif.Summary
open Verif.EndPer

theorem layout_cells (fmt : List Ed) (pos : Nat) (cs : List Cell) (fs : List Field) (h : layout pos fmt cs = some fs) :
    fs.map (·.cell) = cs := by
  induction fmt generalizing pos cs fs with
  | nil =>
    cases cs with
    | nil => simp only [layout, Option.some.injEq] at h; subst h; rfl
    | cons c cs => simp [layout] at h
  | cons e fmt ih =>
    cases e with
    | x n => exact ih _ _ _ (by rw [layout] at h; exact h)
    | i w =>
      cases cs with
      | nil => simp only [layout, Option.some.injEq] at h; subst h; rfl
      | cons c cs =>
        rw [layout] at h
        · split_ifs at h
          obtain ⟨gs, h1, rfl⟩ := Option.map_eq_some_iff.1 h
          simp [ih _ _ _ h1]
        · simp
    | f w =>
      cases cs with
      | nil => simp only [layout, Option.some.injEq] at h; subst h; rfl
      | cons c cs =>
        rw [layout] at h
        · split_ifs at h
          obtain ⟨gs, h1, rfl⟩ := Option.map_eq_some_iff.1 h
          simp [ih _ _ _ h1]
        · simp
    | a w =>
      cases cs with
      | nil => simp only [layout, Option.some.injEq] at h; subst h; rfl
      | cons c cs =>
        rw [layout] at h
        · split_ifs at h
          obtain ⟨gs, h1, rfl⟩ := Option.map_eq_some_iff.1 h
          simp [ih _ _ _ h1]
        · simp

/-- The columns of the items of a format. -/
def places : Nat → List Ed → List (Nat × Nat)
  | _, [] => []
  | pos, .x n :: r => places (pos + n) r
  | pos, e :: r => (pos, pos + e.width) :: places (pos + e.width) r

theorem layout_places (fmt : List Ed) (pos : Nat) (cs : List Cell) (fs : List Field) (h : layout pos fmt cs = some fs)
    (hl : (places pos fmt).length = cs.length) : (fs.map fun f => (f.first, f.last)) = places pos fmt := by
  induction fmt generalizing pos cs fs with
  | nil =>
    cases cs with
    | nil => simp only [layout, Option.some.injEq] at h; subst h; rfl
    | cons c cs => simp [layout] at h
  | cons e fmt ih =>
    cases e with
    | x n => rw [places] at hl ⊢; exact ih _ _ _ (by rw [layout] at h; exact h) hl
    | i w =>
      cases cs with
      | nil => simp [places] at hl
      | cons c cs =>
        rw [places] at hl ⊢ <;> try simp
        rw [layout] at h
        · split_ifs at h
          obtain ⟨gs, h1, rfl⟩ := Option.map_eq_some_iff.1 h
          simp [ih _ _ _ h1 (by simpa using hl)]
        · simp
    | f w =>
      cases cs with
      | nil => simp [places] at hl
      | cons c cs =>
        rw [places] at hl ⊢ <;> try simp
        rw [layout] at h
        · split_ifs at h
          obtain ⟨gs, h1, rfl⟩ := Option.map_eq_some_iff.1 h
          simp [ih _ _ _ h1 (by simpa using hl)]
        · simp
    | a w =>
      cases cs with
      | nil => simp [places] at hl
      | cons c cs =>
        rw [places] at hl ⊢ <;> try simp
        rw [layout] at h
        · split_ifs at h
          obtain ⟨gs, h1, rfl⟩ := Option.map_eq_some_iff.1 h
          simp [ih _ _ _ h1 (by simpa using hl)]
        · simp

theorem collect_mem {α β} (f : α → Option (List β)) (l : List α) (out : List β) (h : collect f l = some out) (a : α) (ha : a ∈ l) :
    ∃ x, f a = some x ∧ ∀ b ∈ x, b ∈ out := by
  induction l generalizing out with
  | nil => simp at ha
  | cons c l ih =>
    rw [collect] at h
    cases h1 : f c with
    | none => rw [h1] at h; simp at h
    | some x =>
      cases h2 : collect f l with
      | none => rw [h1, h2] at h; simp at h
      | some y =>
        rw [h1, h2] at h
        simp only [Option.some.injEq] at h
        subst h
        rcases List.mem_cons.1 ha with rfl | ha
        · exact ⟨x, h1, fun b hb => by simp [hb]⟩
        · obtain ⟨z, hz, hm⟩ := ih y h2 ha
          exact ⟨z, hz, fun b hb => by simp [hm b hb]⟩

theorem collect_some {α β} (f : α → Option (List β)) (l : List α) (h : ∀ a ∈ l, (f a).isSome) : (collect f l).isSome := by
  induction l with
  | nil => rfl
  | cons c l ih =>
    rw [collect]
    obtain ⟨x, hx⟩ := Option.isSome_iff_exists.1 (h c (by simp))
    obtain ⟨y, hy⟩ := Option.isSome_iff_exists.1 (ih fun a ha => h a (by simp [ha]))
    rw [hx, hy]
    rfl

theorem collect_filterMap {α β γ} (f : α → Option (List β)) (g : β → Option γ) (w : α → List γ)
    (hw : ∀ a x, f a = some x → x.filterMap g = w a) (l : List α) (out : List β) (h : collect f l = some out) :
    out.filterMap g = l.flatMap w := by
  induction l generalizing out with
  | nil => simp only [collect, Option.some.injEq] at h; subst h; rfl
  | cons c l ih =>
    rw [collect] at h
    cases h1 : f c with
    | none => rw [h1] at h; simp at h
    | some x =>
      cases h2 : collect f l with
      | none => rw [h1, h2] at h; simp at h
      | some y =>
        rw [h1, h2] at h
        simp only [Option.some.injEq] at h
        subst h
        rw [List.filterMap_append, hw c x h1, ih y h2]
        simp

theorem outputs_cons (log) (c : Cfg) (st : State) (u : Step) (us : List Step) (outs) (h : outputs log c st (u :: us) = some outs) :
    ∃ a b r, hydroStep log c st u = some a ∧ chemStep log c st u = some b ∧ outputs log c (advance log st u) us = some r ∧
      outs = (a, b) :: r := by
  rw [outputs] at h
  split at h
  · rename_i a b r h1 h2 h3
    exact ⟨a, b, r, h1, h2, h3, (Option.some.inj h).symm⟩
  · cases h

theorem outputs_length (log) (c : Cfg) (us : List Step) (st : State) (outs) (h : outputs log c st us = some outs) :
    outs.length = us.length := by
  induction us generalizing st outs with
  | nil => simp only [outputs, Option.some.injEq] at h; subst h; rfl
  | cons u us ih =>
    obtain ⟨a, b, r, -, -, h3, rfl⟩ := outputs_cons log c st u us outs h
    simp [ih _ _ h3]

theorem outputs_at (log) (c : Cfg) (us : List Step) (st : State) (outs) (h : outputs log c st us = some outs) (k : Nat) (u : Step)
    (hu : us[k]? = some u) :
    ∃ a b, outs[k]? = some (a, b) ∧ hydroStep log c ((us.take k).foldl (advance log) st) u = some a ∧
      chemStep log c ((us.take k).foldl (advance log) st) u = some b := by
  induction us generalizing st outs k with
  | nil => simp at hu
  | cons v us ih =>
    obtain ⟨a, b, r, h1, h2, h3, rfl⟩ := outputs_cons log c st v us outs h
    cases k with
    | zero =>
      simp only [List.getElem?_cons_zero, Option.some.injEq] at hu
      subst hu
      exact ⟨a, b, by simp, by simpa using h1, by simpa using h2⟩
    | succ k =>
      simp only [List.getElem?_cons_succ] at hu
      obtain ⟨a', b', g1, g2, g3⟩ := ih _ _ h3 k hu
      exact ⟨a', b', by simpa using g1, by simpa using g2, by simpa using g3⟩

/-- The last step of a run. -/
theorem outputs_last (log) (c : Cfg) (us : List Step) (u : Step) (outs) (h : outputs log c State.init (us ++ [u]) = some outs) :
    ∃ a b, outs.getLast? = some (a, b) ∧ hydroStep log c (runAll log us) u = some a ∧ chemStep log c (runAll log us) u = some b := by
  obtain ⟨a, b, h1, h2, h3⟩ := outputs_at log c _ _ outs h us.length u (by simp)
  have hl := outputs_length log c _ _ outs h
  refine ⟨a, b, ?_, by simpa [runAll] using h2, by simpa [runAll] using h3⟩
  rw [List.getLast?_eq_getElem?, hl]
  simpa using h1

theorem detail_some (u : Step) (k : Kind) (r : Row) : (hydroRow 2 u k r).isSome = true := by
  rcases k with _ | _ | _ | _ | _ | _ <;> rfl

theorem table_some (u : Step) (k : Kind) (r : Row) : (hydroRow 1 u k r).isSome = true := by
  rcases k with _ | _ | _ | _ | _ | _ <;> rfl

theorem detail_cells (u : Step) (k : Kind) (r : Row) (fs) (h : hydroRow 2 u k r = some fs) :
    fs.map (·.cell) = dateOf u k ++ r.detail := by
  unfold hydroRow at h
  rw [if_neg (by decide), if_neg (by decide), if_pos rfl] at h
  exact layout_cells _ _ _ _ h

theorem table_cells (u : Step) (k : Kind) (r : Row) (fs) (h : hydroRow 1 u k r = some fs) :
    fs.map (·.cell) = dateOf u k ++ r.table := by
  unfold hydroRow at h
  rw [if_neg (by decide), if_pos rfl] at h
  exact layout_cells _ _ _ _ h

theorem kinds_mem (s : Switches) (f : Flags) (ts : Rat) (b : Bool) (k : Kind) :
    k ∈ kinds s f ts b ↔ match k with
      | none => s.u = true
      | some .storm => False
      | some .day => f.dy = true ∧ ts < 24 ∧ s.d = true ∧ b = true
      | some .month => f.mo = true ∧ s.m = true
      | some .year => f.yr = true ∧ s.y = true
      | some .run => f.run = true ∧ s.t = true := by
  unfold kinds
  simp only [List.mem_append, List.mem_ite_nil_right, List.mem_singleton]
  rcases k with _ | _ | _ | _ | _ | _ <;> simp <;> tauto

end Verif.Summary
