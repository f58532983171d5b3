import Verif.Lemmas.TransportMru2
/-
What a list of records does to the composite of a unit.
-/
namespace Verif.Transport
open Verif.Reservoir (Vol Rows BinOut Par In sumOf)
open Verif.Chem (Ctx Call Event Table Same)
open Verif.SolnNum (Dims)

theorem made_row {d : Dims} {u : Nat} {e : Ev} (he : e.sound d) {c : Key × Rat × Rat} (hc : c ∈ e.made u) :
    c.1.unit? = some u ∧ c.1.inUnit ∧ c.1.Within d ∧ e.made u = [c] ∧ e.reaction c.1 = [c.2] := by
  cases e with
  | call row metric vol conc tal mru basin react =>
    cases react with
    | false => simp [Ev.made] at hc
    | true =>
      simp only [Ev.made] at hc ⊢
      split at hc
      · rename_i hu
        simp only [List.mem_cons, List.not_mem_nil, or_false] at hc
        subst hc
        obtain ⟨e1, -, e3⟩ := he
        simp only [if_true] at e3
        refine ⟨hu, ?_, e1, by simp [hu], by simp [Ev.reaction]⟩
        rcases e3 with e3 | ⟨-, h, -, rfl⟩
        · exact holds_inUnit e3.1
        · simp [Key.unit?] at hu
      · exact absurd hc (by simp)
  | _ => simp [Ev.made] at hc

/-- Reactions of the rows of a unit in a list of records. -/
def recMade (u : Nat) (l : List Ev) : List (Key × Rat × Rat) := l.flatMap (Ev.made u)

theorem heard_mru {d : Dims} (ok : d.Ok) {n u : Nat} {z : Nat → Ctx × Call} (hz : ∀ i, Known n (z i).1) (V : Key → Rat) (P : Key → Prop) (l : List Ev)
    (hl : ∀ e ∈ l, e.sound d) (hb : ∀ e ∈ l, e.bound) (hP : ∀ c ∈ recMade u l, P c.1)
    (hv : ∀ k : Key, P k → ∀ y ∈ recVol k l, y.2.2 = V k) (i : Nat) (t t' : Table)
    (h : Chem.run (heard d n z i l) t = some t')
    (h0 : ∀ k : Key, P k → k.inUnit → k.Within d → Early k l ∨ t (.res (place d k)) (.vol 5) = V k) :
    t' (.mru u) (.mol n 1) = t (.mru u) (.mol n 1) ∧
    t' (.mru u) (.mol n 2) = t (.mru u) (.mol n 2) + 1000 * (recCrossIn u l + recEnter u l) ∧
    t' (.mru u) (.mol n 3) = t (.mru u) (.mol n 3) + 1000 * (recCrossOut u l + recLeave u l) ∧
    t' (.mru u) (.mol n 4) = t (.mru u) (.mol n 4) + ((recMade u l).map fun c => 1000 * (V c.1 * (c.2.2 - c.2.1))).sum ∧
    t' (.mru u) (.mol n 5) = t (.mru u) (.mol n 5) + ((recMade u l).map fun c => 1000 * (V c.1 * c.2.2)).sum := by
  induction l generalizing i t with
  | nil =>
    simp only [heard, Chem.run, Option.some.injEq] at h
    subst h
    simp [recCrossIn, recCrossOut, recEnter, recLeave, recMade]
  | cons e l ih =>
    simp only [heard, run_append] at h
    have he := hl e List.mem_cons_self
    obtain ⟨w, h1, h2⟩ := told_mstep (u := u) ok (sited_known (hz i) e) he (hb e List.mem_cons_self) t
    rw [h1, Option.bind_some] at h
    have hvol : ∀ c ∈ e.made u, t (.res (place d c.1)) (.vol 5) = V c.1 := by
      intro c hc
      obtain ⟨a1, a2, a3, -, a5⟩ := made_row he hc
      rcases h0 c.1 (hP c (by simp only [recMade, List.flatMap_cons]; exact List.mem_append_left _ hc)) a2 a3 with h0 | h0
      · obtain ⟨e', m, -⟩ := h0 [] e l rfl (by rw [a5]; simp)
        exact absurd m (by simp)
      · exact h0
    obtain ⟨i1, i2, i3, i4, i5⟩ := ih (fun e he => hl e (List.mem_cons_of_mem _ he)) (fun e he => hb e (List.mem_cons_of_mem _ he))
      (fun c hc => hP c (by simp only [recMade, List.flatMap_cons]; exact List.mem_append_right _ hc))
      (fun k a y hy => hv k a y (by simp only [recVol, List.flatMap_cons]; exact List.mem_append_right _ hy)) (i + 1) w h (by
        intro k a1 a2 a3
        obtain ⟨w', g1, g2⟩ := told_step ok (sited_known (hz i) e) a2 a3 he t
        rw [h1] at g1
        cases Option.some.inj g1
        cases hd : e.volumes k with
        | nil =>
          rcases h0 k a1 a2 a3 with h0 | h0
          · left
            intro l1 e' l2 hs he'
            obtain ⟨e'', m, hm⟩ := h0 (e :: l1) e' l2 (by rw [hs]; rfl) he'
            rcases List.mem_cons.1 m with rfl | m
            · exact absurd hd hm
            · exact ⟨e'', m, hm⟩
          · right; rw [(g2.vol hd).2, h0]
        | cons y ys =>
          right
          have hm : y ∈ e.volumes k := by rw [hd]; exact List.mem_cons_self
          rw [(g2.vols y hm).2, hv k a1 y (by simp only [recVol, List.flatMap_cons]; exact List.mem_append_left _ hm)])
    have s4 : ((e.made u).map fun c => 1000 * (t (.res (place d c.1)) (.vol 5) * (c.2.2 - c.2.1))) =
        (e.made u).map fun c => 1000 * (V c.1 * (c.2.2 - c.2.1)) := List.map_congr_left fun c hc => by rw [hvol c hc]
    have s5 : ((e.made u).map fun c => 1000 * (t (.res (place d c.1)) (.vol 5) * c.2.2)) =
        (e.made u).map fun c => 1000 * (V c.1 * c.2.2) := List.map_congr_left fun c hc => by rw [hvol c hc]
    refine ⟨?_, ?_, ?_, ?_, ?_⟩
    · rw [i1, h2.init]
    · rw [i2, h2.inp]; simp only [recCrossIn, recEnter, List.map_cons, List.sum_cons]; ring
    · rw [i3, h2.out]; simp only [recCrossOut, recLeave, List.map_cons, List.sum_cons]; ring
    · rw [i4, h2.rxn, s4]; simp only [recMade, List.flatMap_cons, List.map_append, List.sum_append]; ring
    · rw [i5, h2.fin, s5]; simp only [recMade, List.flatMap_cons, List.map_append, List.sum_append]; ring

theorem sum_one (rows : List Key) (hn : rows.Nodup) (row : Key) (hr : row ∈ rows) (g : Key → List (Rat × Rat) → Rat) (hg : ∀ k, g k [] = 0)
    (c : Rat × Rat) : (rows.map fun k => g k (if k = row then [c] else [])).sum = g row [c] := by
  induction rows with
  | nil => exact absurd hr (by simp)
  | cons k rows ih =>
    rw [List.nodup_cons] at hn
    rw [List.map_cons, List.sum_cons]
    rcases List.mem_cons.1 hr with rfl | hr
    · have : (rows.map fun k => g k (if k = row then [c] else [])).sum = 0 := by
        rw [List.map_congr_left (g := fun _ => 0)]
        · simp
        · intro k hk
          have : k ≠ row := by rintro rfl; exact hn.1 hk
          rw [if_neg this, hg]
      rw [if_pos rfl, this, add_zero]
    · have : k ≠ row := by rintro rfl; exact hn.1 hr
      rw [if_neg this, hg, zero_add, ih hn.2 hr]

/-- Reactions of a unit, row by row. -/
theorem made_rows {d : Dims} {u : Nat} (rows : List Key) (hn : rows.Nodup) (l : List Ev) (hl : ∀ e ∈ l, e.sound d)
    (hr : ∀ c ∈ recMade u l, c.1 ∈ rows) (hu : ∀ k ∈ rows, k.unit? = some u) (g : Key × Rat × Rat → Rat) :
    ((recMade u l).map g).sum = (rows.map fun k => ((recEnd k l).map fun c => g (k, c)).sum).sum := by
  induction l with
  | nil => simp [recMade, recEnd]
  | cons e l ih =>
    have ih' := ih (fun e he => hl e (List.mem_cons_of_mem _ he))
      (fun c hc => hr c (by simp only [recMade, List.flatMap_cons]; exact List.mem_append_right _ hc))
    have split : (rows.map fun k => ((recEnd k (e :: l)).map fun c => g (k, c)).sum).sum =
        (rows.map fun k => ((e.reaction k).map fun c => g (k, c)).sum).sum + (rows.map fun k => ((recEnd k l).map fun c => g (k, c)).sum).sum := by
      rw [← List.sum_map_add]
      congr 1
      apply List.map_congr_left
      intro k _
      simp only [recEnd, List.flatMap_cons, List.map_append, List.sum_append]
    rw [split, ← ih']
    simp only [recMade, List.flatMap_cons, List.map_append, List.sum_append]
    congr 1
    cases hm : e.made u with
    | nil =>
      have : (rows.map fun k => ((e.reaction k).map fun c => g (k, c)).sum) = rows.map fun _ => 0 := by
        apply List.map_congr_left
        intro k hk
        have : e.reaction k = [] := by
          cases e with
          | call row metric vol conc tal mru basin react =>
            cases react with
            | false => rfl
            | true =>
              simp only [Ev.reaction]
              rw [if_neg]
              rintro rfl
              simp [Ev.made, hu k hk] at hm
          | _ => rfl
        simp [this]
      rw [this]
      simp
    | cons c cs =>
      have hc : c ∈ e.made u := by rw [hm]; exact List.mem_cons_self
      obtain ⟨-, -, -, a4, -⟩ := made_row (hl e List.mem_cons_self) hc
      rw [← hm, a4]
      have hrow : c.1 ∈ rows := hr c (by simp only [recMade, List.flatMap_cons]; exact List.mem_append_left _ hc)
      have hre : ∀ k, e.reaction k = if k = c.1 then [c.2] else [] := by
        intro k
        cases e with
        | call row metric vol conc tal mru basin react =>
          cases react with
          | false => simp [Ev.made] at hc
          | true =>
            simp only [Ev.made] at hc
            split at hc
            · simp only [List.mem_cons, List.not_mem_nil, or_false] at hc
              subst hc
              rfl
            · exact absurd hc (by simp)
        | _ => simp [Ev.made] at hc
      have := sum_one rows hn c.1 hrow (fun k l => (l.map fun c => g (k, c)).sum) (fun _ => rfl) c.2
      simp only [hre]
      rw [this]
      simp

end Verif.Transport
