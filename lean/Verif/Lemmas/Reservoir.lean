import Verif.Spec.Reservoir
import Mathlib.Tactic.Linarith
import Mathlib.Tactic.Ring
import Mathlib.Tactic.FieldSimp
import Mathlib.Tactic.Positivity
/-
Lemmas for C103 to C108.
-/
namespace Verif.Reservoir
open Verif.Topmod (acfs)

theorem sumOf_nil {α : Type} (f : α → Rat) : sumOf f [] = 0 := rfl

theorem sumOf_cons {α : Type} (f : α → Rat) (x : α) (l : List α) : sumOf f (x :: l) = f x + sumOf f l := by
  simp [sumOf]

theorem sumOf_map {α β : Type} (f : β → Rat) (g : α → β) (l : List α) : sumOf f (l.map g) = sumOf (fun x => f (g x)) l := by
  simp [sumOf, List.map_map, Function.comp_def]

theorem sumOf_add {α : Type} (f g : α → Rat) (l : List α) : sumOf (fun x => f x + g x) l = sumOf f l + sumOf g l := by
  induction l with
  | nil => simp [sumOf_nil]
  | cons x l ih => simp only [sumOf_cons, ih]; ring

theorem sumOf_mul {α : Type} (c : Rat) (f : α → Rat) (l : List α) : sumOf (fun x => c * f x) l = c * sumOf f l := by
  induction l with
  | nil => simp [sumOf_nil]
  | cons x l ih => simp only [sumOf_cons, ih]; ring

theorem sumOf_congr {α : Type} (f g : α → Rat) (l : List α) (h : ∀ x ∈ l, f x = g x) : sumOf f l = sumOf g l := by
  induction l with
  | nil => rfl
  | cons x l ih =>
    rw [sumOf_cons, sumOf_cons, h x (by simp), ih fun y hy => h y (by simp [hy])]

theorem sumOf_zero {α : Type} (f : α → Rat) (l : List α) (h : ∀ x ∈ l, f x = 0) : sumOf f l = 0 := by
  rw [sumOf_congr f (fun _ => 0) l h]
  induction l with
  | nil => rfl
  | cons x l ih => rw [sumOf_cons, ih fun y hy => h y (by simp [hy])]; ring

/-- What a step consists of. -/
theorem step_eq (p : Par) (s : Start) (i : In) (r : Rows) (e : Extra) (h : step p s i = some (r, e)) :
    ∃ oh b, ohorizon p s.transp i (ground p i (snowfrac i s.snow)) s.ohoriz = some oh ∧
      bypass p i (ground p i (snowfrac i s.snow)) = some b ∧
      e.bins = bins p s.transp i (ground p i (snowfrac i s.snow)) (canopy p s.transp i s.can).uz s.uz ∧
      e.surfdep = (ground p i (snowfrac i s.snow)).total ∧
      e.bypass = (if i.qvpref > 0 then p.vol i.qvpref else 0) ∧
      r.transp = i.transp ∧ r.can = canopy p s.transp i s.can ∧ r.snow = snow p i s.snow ∧ r.ohoriz = oh ∧
      r.uz = e.bins.map (·.vol) ∧ r.uzgen = composite s.uzgen r.uz ∧ r.uzrip = composite s.uzrip (only true p.rip r.uz) ∧
      r.uzup = composite s.uzup (only false p.rip r.uz) ∧ r.qdf = qdfRow (sumOf (·.toQdf) e.bins) s.qdf ∧
      r.sat = satRow p i (ground p i (snowfrac i s.snow)) b e.bins s.sat ∧ r.satpref = satprefRow (p.vol i.qpref) s.satpref ∧
      r.hill = hillRow (oh.out - r.can.ohoriz) r.qdf.out (p.vol i.qb) r.satpref.out s.hill ∧
      r.mru = mruRow p i r.can r.snow r.sat r.hill r.uz s.mru := by
  unfold step at h
  dsimp only at h
  split at h
  · rename_i oh b h1 h2
    simp only [Option.some.injEq, Prod.mk.injEq] at h
    obtain ⟨rfl, rfl⟩ := h
    exact ⟨oh, b, h1, h2, rfl, rfl, rfl, rfl, rfl, rfl, rfl, rfl, rfl, rfl, rfl, rfl, rfl, rfl, rfl, rfl⟩
  · exact absurd h (by simp)

theorem canopy_row (p : Par) (was : Bool) (i : In) (x : Rat) :
    (canopy p was i x).Balanced ∧ (canopy p was i x).Summed ∧ (canopy p was i x).init = x := by
  refine ⟨rfl, ?_, rfl⟩
  simp only [Vol.Summed, Vol.sources, canopy]
  ring

theorem snow_row (p : Par) (i : In) (x : Rat) : (snow p i x).Summed ∧ (snow p i x).init = x := by
  unfold snow
  split
  · exact ⟨by simp [Vol.Summed, Vol.sources], rfl⟩
  · refine ⟨?_, rfl⟩
    simp only [Vol.Summed, Vol.sources]
    ring

theorem ohorizon_row (p : Par) (was : Bool) (i : In) (g : Ground) (x : Rat) (v : Vol) (h : ohorizon p was i g x = some v) :
    v.Balanced ∧ v.Summed ∧ v.init = x ∧ v.et = 0 := by
  unfold ohorizon at h
  dsimp only at h
  split at h
  · split at h
    · exact absurd h (by simp)
    · simp only [Option.some.injEq] at h
      subst h
      refine ⟨?_, ?_, rfl, rfl⟩
      · simp only [Vol.Balanced]; ring
      · simp only [Vol.Summed, Vol.sources]; ring
  · simp only [Option.some.injEq] at h
    subst h
    refine ⟨?_, ?_, rfl, rfl⟩
    · simp only [Vol.Balanced]; ring
    · simp only [Vol.Summed, Vol.sources]; ring

/-- Only the columns used for a bin. -/
def Plain (v : Vol) : Prop := v.inp = v.ppt + v.can + v.melt + v.sat + v.well + v.div + v.ext ∧ v.Balanced

theorem bin_row (p : Par) (was : Bool) (i : In) (g : Ground) (t a : Rat) (b : BinIn) (x : Rat) :
    Plain (bin p was i g t a b x).vol ∧ (bin p was i g t a b x).vol.Summed ∧ (bin p was i g t a b x).vol.init = x := by
  refine ⟨⟨?_, rfl⟩, ?_, rfl⟩
  · simp only [bin]; ring
  · simp only [Vol.Summed, Vol.sources, bin]; ring

theorem bins_row (p : Par) (was : Bool) (i : In) (g : Ground) (t : Rat) (xs : List Rat) (o : BinOut)
    (h : o ∈ bins p was i g t xs) : Plain o.vol ∧ o.vol.Summed := by
  unfold bins at h
  obtain ⟨k, hk, rfl⟩ := List.mem_iff_getElem.1 h
  rw [List.getElem_zipWith]
  exact ⟨(bin_row _ _ _ _ _ _ _ _).1, (bin_row _ _ _ _ _ _ _ _).2.1⟩

theorem composite_row (x : Rat) (vs : List Vol) (h : ∀ v ∈ vs, Plain v) :
    (composite x vs).Balanced ∧ (composite x vs).Summed ∧ (composite x vs).init = x := by
  refine ⟨rfl, ?_, rfl⟩
  simp only [Vol.Summed, Vol.sources, composite]
  rw [sumOf_congr _ _ vs fun v hv => (h v hv).1]
  simp only [sumOf_add]
  ring

theorem only_mem (k : Bool) (rip : List Bool) (vs : List Vol) (v : Vol) (h : v ∈ only k rip vs) : v ∈ vs := by
  unfold only at h
  obtain ⟨x, hx, rfl⟩ := List.mem_map.1 h
  exact (List.of_mem_zip (show (x.1, x.2) ∈ _ from (List.mem_filter.1 hx).1)).2

theorem qdf_row (x y : Rat) : (qdfRow x y).Balanced ∧ (qdfRow x y).Summed ∧ (qdfRow x y).init = y ∧ (qdfRow x y).fin = y := by
  refine ⟨?_, ?_, rfl, ?_⟩
  · simp only [Vol.Balanced, qdfRow]; ring
  · simp only [Vol.Summed, Vol.sources, qdfRow]; ring
  · simp only [qdfRow]; ring

theorem satpref_row (x y : Rat) : (satprefRow x y).Balanced ∧ (satprefRow x y).Summed ∧ (satprefRow x y).init = y ∧
    (satprefRow x y).fin = y := by
  refine ⟨?_, ?_, rfl, ?_⟩
  · simp only [Vol.Balanced, satprefRow]; ring
  · simp only [Vol.Summed, Vol.sources, satprefRow]; ring
  · simp only [satprefRow]; ring

theorem hill_row (a b c d y : Rat) : (hillRow a b c d y).Balanced ∧ (hillRow a b c d y).Summed ∧
    (hillRow a b c d y).init = y ∧ (hillRow a b c d y).fin = y := by
  refine ⟨?_, ?_, rfl, ?_⟩
  · simp only [Vol.Balanced, hillRow]; ring
  · simp only [Vol.Summed, Vol.sources, hillRow]; ring
  · simp only [hillRow]; ring

theorem sat_row (p : Par) (i : In) (g : Ground) (b : Rat) (bs : List BinOut) (x : Rat) :
    (satRow p i g b bs x).Balanced ∧ (satRow p i g b bs x).Summed ∧ (satRow p i g b bs x).init = x := by
  refine ⟨?_, ?_, rfl⟩
  · simp only [Vol.Balanced, satRow]; ring
  · simp only [Vol.Summed, Vol.sources, satRow]; ring

theorem mru_row (p : Par) (i : In) (c sn st h : Vol) (uz : List Vol) (x : Rat) :
    (mruRow p i c sn st h uz x).Balanced ∧ (mruRow p i c sn st h uz x).Summed ∧ (mruRow p i c sn st h uz x).init = x := by
  refine ⟨rfl, ?_, rfl⟩
  simp only [Vol.Summed, Vol.sources, mruRow, Fall.total]; ring

/-- The rows of the bins. -/
theorem bins_getElem (p : Par) (was : Bool) (i : In) (g : Ground) (t : Rat) (xs : List Rat) (j : Nat) (o : BinOut)
    (h : (bins p was i g t xs)[j]? = some o) :
    ∃ a b x, (acfs p.ac)[j]? = some a ∧ i.bins[j]? = some b ∧ xs[j]? = some x ∧ o = bin p was i g t a b x := by
  unfold bins at h
  rw [List.getElem?_zipWith] at h
  cases h1 : (List.zip (acfs p.ac) i.bins)[j]? with
  | none => rw [h1] at h; exact absurd h (by simp)
  | some ab =>
    cases h2 : xs[j]? with
    | none => rw [h1, h2] at h; exact absurd h (by simp)
    | some x =>
      rw [h1, h2] at h
      obtain ⟨h3, h4⟩ := List.getElem?_zip_eq_some.1 h1
      exact ⟨ab.1, ab.2, x, h3, h4, rfl, (Option.some.inj h).symm⟩

/-- Every reservoir of a step: its inputs are the sum of its sources, its initial volume is the given one, and it balances
unless it is the snowpack. -/
theorem step_rows (p : Par) (s : Start) (i : In) (r : Rows) (e : Extra) (h : step p s i = some (r, e)) (q : Res) (v : Vol)
    (hv : r.row q = some v) : v.Summed ∧ s.vol q = some v.init ∧ r.next.vol q = some v.fin ∧ (q ≠ .snow → v.Balanced) := by
  obtain ⟨oh, b, h1, h2, e1, e2, e3, r1, r2, r3, r4, r5, r6, r7, r8, r9, r10, r11, r12, r13⟩ := step_eq p s i r e h
  have huz : ∀ v ∈ r.uz, Plain v := by
    intro v hv
    rw [r5] at hv
    obtain ⟨o, ho, rfl⟩ := List.mem_map.1 hv
    rw [e1] at ho
    exact (bins_row _ _ _ _ _ _ o ho).1
  cases q with
  | can =>
    simp only [Rows.row, Option.some.injEq] at hv
    subst hv
    obtain ⟨a, b, c⟩ := canopy_row p s.transp i s.can
    rw [r2]; exact ⟨b, by simp [Start.vol, c], by simp [Start.vol, Rows.next, r2], fun _ => a⟩
  | snow =>
    simp only [Rows.row, Option.some.injEq] at hv
    subst hv
    obtain ⟨a, b⟩ := snow_row p i s.snow
    rw [r3]; exact ⟨a, by simp [Start.vol, b], by simp [Start.vol, Rows.next, r3], fun x => absurd rfl x⟩
  | ohoriz =>
    simp only [Rows.row, Option.some.injEq] at hv
    subst hv
    obtain ⟨a, b, c, -⟩ := ohorizon_row p s.transp i _ s.ohoriz oh h1
    rw [r4]; exact ⟨b, by simp [Start.vol, c], by simp [Start.vol, Rows.next, r4], fun _ => a⟩
  | uz j =>
    simp only [Rows.row] at hv
    have hv' := hv
    rw [r5, List.getElem?_map] at hv
    obtain ⟨o, ho, rfl⟩ := Option.map_eq_some_iff.1 hv
    rw [e1] at ho
    obtain ⟨a, bb, x, q1, q2, q3, q4⟩ := bins_getElem _ _ _ _ _ _ j o ho
    obtain ⟨w1, w2, w3⟩ := bin_row p s.transp i (ground p i (snowfrac i s.snow)) (canopy p s.transp i s.can).uz a bb x
    rw [← q4] at w1 w2 w3
    exact ⟨w2, by simp [Start.vol, q3, w3], by simp [Start.vol, Rows.next, List.getElem?_map, hv'], fun _ => w1.2⟩
  | uzgen =>
    simp only [Rows.row, Option.some.injEq] at hv
    subst hv
    obtain ⟨a, b, c⟩ := composite_row s.uzgen r.uz huz
    rw [r6]; exact ⟨b, by simp [Start.vol, c], by simp [Start.vol, Rows.next, r6], fun _ => a⟩
  | uzrip =>
    simp only [Rows.row, Option.some.injEq] at hv
    subst hv
    obtain ⟨a, b, c⟩ := composite_row s.uzrip (only true p.rip r.uz) fun v hv => huz v (only_mem _ _ _ v hv)
    rw [r7]; exact ⟨b, by simp [Start.vol, c], by simp [Start.vol, Rows.next, r7], fun _ => a⟩
  | uzup =>
    simp only [Rows.row, Option.some.injEq] at hv
    subst hv
    obtain ⟨a, b, c⟩ := composite_row s.uzup (only false p.rip r.uz) fun v hv => huz v (only_mem _ _ _ v hv)
    rw [r8]; exact ⟨b, by simp [Start.vol, c], by simp [Start.vol, Rows.next, r8], fun _ => a⟩
  | qdf =>
    simp only [Rows.row, Option.some.injEq] at hv
    subst hv
    obtain ⟨a, b, c, -⟩ := qdf_row (sumOf (·.toQdf) e.bins) s.qdf
    rw [r9]; exact ⟨b, by simp [Start.vol, c], by simp [Start.vol, Rows.next, r9], fun _ => a⟩
  | sat =>
    simp only [Rows.row, Option.some.injEq] at hv
    subst hv
    obtain ⟨a, b, c⟩ := sat_row p i (ground p i (snowfrac i s.snow)) b e.bins s.sat
    rw [r10]; exact ⟨b, by simp [Start.vol, c], by simp [Start.vol, Rows.next, r10], fun _ => a⟩
  | satpref =>
    simp only [Rows.row, Option.some.injEq] at hv
    subst hv
    obtain ⟨a, b, c, -⟩ := satpref_row (p.vol i.qpref) s.satpref
    rw [r11]; exact ⟨b, by simp [Start.vol, c], by simp [Start.vol, Rows.next, r11], fun _ => a⟩
  | hill =>
    simp only [Rows.row, Option.some.injEq] at hv
    subst hv
    obtain ⟨a, b, c, -⟩ := hill_row (oh.out - r.can.ohoriz) r.qdf.out (p.vol i.qb) r.satpref.out s.hill
    rw [r12]; exact ⟨b, by simp [Start.vol, c], by simp [Start.vol, Rows.next, r12], fun _ => a⟩
  | mru =>
    simp only [Rows.row, Option.some.injEq] at hv
    subst hv
    obtain ⟨a, b, c⟩ := mru_row p i r.can r.snow r.sat r.hill r.uz s.mru
    rw [r13]; exact ⟨b, by simp [Start.vol, c], by simp [Start.vol, Rows.next, r13], fun _ => a⟩

end Verif.Reservoir
