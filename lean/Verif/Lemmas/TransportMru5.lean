import Verif.Lemmas.TransportMru4
import Verif.Lemmas.TransportSum
/-
The balance of the composite of a unit.
-/
namespace Verif.Transport
open Verif.Reservoir (Vol Rows BinOut Par In sumOf)
open Verif.Chem (Ctx Call Event Table)
open Verif.SolnNum (Dims)

/-- What moves depends on the solutions of the unit, and on those of rain, irrigation and groundwater. -/
theorem moved_congr {rx : Ent → Sol → Sol} {f : Flow} {s s' w w' : St} (h : Moved rx f s s')
    (h1 : ∀ k : Key, k.of f.unit ∨ k.fixed → w.sol k = s.sol k)
    (h2 : ∀ k : Key, k.of f.unit → k ≠ .hill false 14 f.unit → w'.sol k = s'.sol k) (hp : w'.pulse = s'.pulse) : Moved rx f w w' := by
  have a1 : ∀ i, at_ w (f.key false i) = at_ s (f.key false i) := fun i => at_congr (h1 _ (Or.inl rfl))
  have a0 : ∀ i, at_ w (f.key true i) = at_ s (f.key true i) := fun i => at_congr (h1 _ (Or.inl rfl))
  have a2 : ∀ j, at_ w (.bin false f.unit j) = at_ s (.bin false f.unit j) := fun j => at_congr (h1 _ (Or.inl rfl))
  have a3 : ∀ j, at_ w (.data j) = at_ s (.data j) := fun j => at_congr (h1 _ (Or.inr trivial))
  have a4 : fallenMol f w = fallenMol f s := by
    unfold fallenMol
    rw [a3, a3, a1, at_congr (h1 (.seg false f.srcInt) (Or.inr trivial))]
  have b1 : ∀ i, at_ w' (f.key true i) = at_ s' (f.key true i) := fun i => at_congr (h2 _ rfl (by simp [Flow.key]))
  have b2 : ∀ j, at_ w' (.bin true f.unit j) = at_ s' (.bin true f.unit j) := fun j => at_congr (h2 _ rfl (by simp))
  have b3 : at_ w' (f.key false 11) = at_ s' (f.key false 11) := at_congr (h2 _ rfl (by simp [Flow.key]))
  have b4 : at_ w' (meltKey f w') = at_ s' (meltKey f s') := by
    unfold meltKey
    rw [hp]
    split
    · exact at_congr (h2 _ rfl (by simp [Flow.key]))
    · exact b1 2
  have b5 : ∀ v, above f v w' = above f v s' := by intro v; unfold above; rw [b3, b1, b4]
  obtain ⟨g1, g2, g3, g4, g5, g6, g7, g8, g9, g10, g11⟩ := h
  constructor
  · simpa only [b3, a4] using g1
  · simpa only [a1, b1, b2, b3] using g2
  · simpa only [a1, b1, b4, b5] using g3
  · simpa only [a1, b1, b5] using g4
  · intro j b hj; simpa only [a1, a2, b2, b5] using g5 j b hj
  · simpa only [b1, b2] using g6
  · simpa only [a1, b1] using g7
  · simpa only [a1, a3, b1, b5] using g8
  · simpa only [a1, b1] using g9
  · intro h; rw [b1, a0]; exact g10 h
  · simpa only [b1] using g11

/-- The solute of a unit, where the amounts `x` appear in its rows. -/
theorem held_slack {f : Flow} (ho : f.Ok) (hr : f.Regular) {s s' : St} {x1 x2 x3 x4 x7 x8 x9 : Rat} {xb : Nat → BinOut → Rat}
    (m1 : f.dep * at_ s' (f.key false 11) = fallenMol f s + x1)
    (m2 : (f.r.can.fin + f.r.can.out) * at_ s' (f.key true 1) = f.r.can.init * at_ s (f.key false 1) +
      fallen f.r.can * at_ s' (f.key false 11) + f.r.can.ohoriz * at_ s (f.key false 4) +
      overOuts (fun j b => b.toCan * at_ s' (.bin true f.unit j)) 1 f.bins + x2)
    (m3 : f.r.snow.fin * at_ s' (f.key true 2) + f.r.snow.out * at_ s' (meltKey f s') =
      f.r.snow.init * at_ s (f.key false 2) + above f f.r.snow s' + x3)
    (m4 : (f.r.ohoriz.fin + f.r.ohoriz.out - f.r.can.ohoriz) * at_ s' (f.key true 4) =
      (f.r.ohoriz.init - f.r.can.ohoriz) * at_ s (f.key false 4) + above f f.r.ohoriz s' + x4)
    (mb : ∀ j b, f.bins[j]? = some b → (b.vol.fin + b.vol.out) * at_ s' (.bin true f.unit (j + 1)) =
      b.vol.init * at_ s (.bin false f.unit (j + 1)) + above f b.vol s' + b.vol.sat * at_ s (f.key false 8) + xb (j + 1) b)
    (m13 : (f.r.qdf.uz + f.r.sat.uz) * at_ s' (f.key true 13) =
      overOuts (fun j b => (b.toSat + b.toQdf) * at_ s' (.bin true f.unit j)) 1 f.bins)
    (m7 : (f.r.qdf.fin + f.r.qdf.out) * at_ s' (f.key true 7) = f.r.qdf.init * at_ s (f.key false 7) +
      f.r.qdf.uz * at_ s' (f.key true 13) + x7)
    (m8 : (f.r.sat.fin + f.r.sat.out - f.sat2uz - f.well) * at_ s' (f.key true 8) =
      (f.r.sat.init - f.sat2uz - f.well) * at_ s (f.key false 8) + above f f.r.sat s' +
      f.r.sat.uz * at_ s' (f.key true 13) + f.r.sat.gw1 * at_ s (.data (f.srcGw1 + 1)) +
      f.r.sat.gw2 * at_ s (.data (f.srcGw2 + 1)) + x8)
    (m9 : 0 < f.prefMax → (f.r.satpref.fin + f.r.satpref.out) * at_ s' (f.key true 9) =
      f.r.satpref.init * at_ s (f.key false 9) + f.r.satpref.sat * at_ s' (f.key true 8) + x9)
    (h9 : ¬ 0 < f.prefMax → x9 = 0)
    (m10 : f.r.hill.out * at_ s' (f.key true 10) = f.r.hill.ohoriz * at_ s' (f.key true 4) +
      f.r.hill.qdf * at_ s' (f.key true 7) + f.r.hill.sat * at_ s' (f.key true 8) + f.r.hill.satpref * at_ s' (f.key true 9)) :
    known f (·.fin) true s' + f.r.hill.out * at_ s' (f.key true 10) + f.well * at_ s (f.key false 8) +
        f.p.vol f.i.gwLoss * at_ s' (f.key true 8) =
      known f (·.init) false s + fallenMol f s + f.r.sat.gw1 * at_ s (.data (f.srcGw1 + 1)) +
        f.r.sat.gw2 * at_ s (.data (f.srcGw2 + 1)) + (x1 + x2 + x3 + x4 + overOuts xb 1 f.bins + x7 + x8 + x9) := by
  have h := ho.facts
  have m5 : overOuts (fun j b => b.vol.fin * at_ s' (.bin true f.unit j)) 1 f.bins +
      overOuts (fun j b => b.toCan * at_ s' (.bin true f.unit j)) 1 f.bins +
      overOuts (fun j b => (b.toSat + b.toQdf) * at_ s' (.bin true f.unit j)) 1 f.bins =
      overOuts (fun j b => b.vol.init * at_ s (.bin false f.unit j)) 1 f.bins +
      overOuts (fun _ b => fallen b.vol * at_ s' (f.key false 11)) 1 f.bins +
      overOuts (fun _ b => b.vol.can * at_ s' (f.key true 1)) 1 f.bins +
      overOuts (fun _ b => b.vol.melt * at_ s' (meltKey f s')) 1 f.bins +
      overOuts (fun _ b => b.vol.sat * at_ s (f.key false 8)) 1 f.bins + overOuts xb 1 f.bins := by
    rw [← overOuts_add, ← overOuts_add, ← overOuts_add, ← overOuts_add, ← overOuts_add, ← overOuts_add, ← overOuts_add]
    apply overOuts_at
    intro i b hb
    have e := mb i b hb
    have o := h.binOut b (List.mem_of_getElem? hb)
    rw [Nat.add_comm] at e
    unfold above at e
    rw [o] at e
    linarith
  simp only [overOuts_mul] at m5
  have c := h.closed
  have cu := h.uz
  have q1 := c.ppt; have q2 := c.well; have q3 := c.div; have q4 := c.ext; have q5 := c.can; have q6 := c.melt
  have q7 := c.ohoriz; have q9 := c.qdf; have q10 := c.satpref; have q11 := c.sat
  simp only [cu, Reservoir.column_eq, Reservoir.sumOf_map] at q1 q2 q3 q4 q5 q6 q11
  have m9' : known f (·.fin) true s' + f.r.hill.satpref * at_ s' (f.key true 9) = known f (·.init) false s +
      (held f (·.fin) true s' - f.r.satpref.fin * at_ s' (f.key true 9)) -
      (held f (·.init) false s - f.r.satpref.init * at_ s (f.key false 9)) + f.r.satpref.sat * at_ s' (f.key true 8) + x9 := by
    unfold known
    by_cases hp : 0 < f.prefMax
    · rw [if_pos hp, if_pos hp]
      have := m9 hp
      rw [← q10] at this
      linarith
    · rw [if_neg hp, if_neg hp, h9 hp]
      have h1 := hr.pref.resolve_left hp
      have h3 := h.prefIn; have h4 := h.prefOut
      rw [← q10] at h4
      have : f.r.satpref.sat = 0 := by linarith
      have h5 : f.r.hill.satpref = 0 := by linarith
      rw [this, h5]
      ring
  have hfs : sumOf (fun b : BinOut => fallen b.vol) f.bins = sumOf (·.vol.ppt) f.bins + sumOf (·.vol.well) f.bins +
      sumOf (·.vol.div) f.bins + sumOf (·.vol.ext) f.bins := by
    unfold fallen
    rw [Reservoir.sumOf_add, Reservoir.sumOf_add, Reservoir.sumOf_add]
  have hfall : fallen f.r.can + fallen f.r.snow + fallen f.r.ohoriz + sumOf (fun b : BinOut => fallen b.vol) f.bins + fallen f.r.sat = f.dep := by
    rw [hfs, ← ho.dep_sum]
    unfold fallen
    linarith
  have hsu : sumOf (fun b : BinOut => b.vol.sat) f.bins = f.sat2uz := rfl
  rw [hsu] at m5 q11
  have o8 := h.satOut
  have qo := h.qdfOut; have qi := h.qdfIn; have qf := h.qdfFin
  unfold held at m9'
  unfold above at m3 m4 m8
  rw [h.snowMelt] at m3
  rw [m10]
  rw [← hfall] at m1
  rw [← q5] at m2
  rw [← q6] at m3
  rw [← q7] at m4
  rw [← q9] at m7
  rw [← m13] at m5
  rw [← q11] at m8
  rw [h.wellIs] at m8
  generalize known f (·.fin) true s' = K at *
  generalize known f (·.init) false s = K0 at *
  linarith

/-- What a row shows, with the concentration before its reactions. -/
structure Slack (n : Nat) (r : Int) (v : Vol) (pre c0 c1 src c : Rat) (t : Table) : Prop where
  react : t (.res r) (.mol n 4) = 1000 * (v.fin * (c1 - c))
  mass : (v.fin + v.out - pre) * c = (v.init - pre) * c0 + src

theorem shown_slack {n : Nat} {r : Int} {v : Vol} {pre c0 c1 src c : Rat} {u t : Table} (h : Shown n r v pre c0 c1 src u t)
    (hu : u (.res r) (.mol n 1) = 1000 * (v.init * c0)) (h3 : t (.res r) (.mol n 3) = 1000 * (pre * c0 + (v.out - pre) * c))
    (h4 : t (.res r) (.mol n 4) = 1000 * (v.fin * (c1 - c))) : Slack n r v pre c0 c1 src c t := by
  refine ⟨h4, ?_⟩
  have e := h.balance hu
  rw [h3, h4, h.initial, hu, h.input, h.final] at e
  linarith

theorem Slack.still {rx : Ent → Sol → Sol} (hi : Inert rx) {n : Nat} {r : Int} {v : Vol} {pre c0 c1 src c src' vol : Rat} {e : Ent}
    {t : Table} (h : Slack n r v pre c0 c1 src c t) (ht : Taken rx e vol c1 src') (hv : vol = v.fin + v.out - pre)
    (he : src' = (v.init - pre) * c0 + src) (hf : 0 ≤ v.fin) (ho : 0 ≤ v.out - pre) :
    v.fin * (c1 - c) = 0 ∧ (v.out - pre) * (c1 - c) = 0 := by
  have m := ht.mass hi
  rw [he, hv, ← h.mass] at m
  rcases eq_or_ne (v.fin + v.out - pre) 0 with h0 | h0
  · rw [show v.fin = 0 by linarith, show v.out - pre = 0 by linarith]
    simp
  · rw [mul_left_cancel₀ h0 m]
    simp

/-- The rows of a unit, with their concentrations before reactions. -/
theorem unit_slack {d : Dims} {n : Nat} {f : Flow} {s s' : St} {u t : Table} (hS : UnitShown d n f s s' u t)
    (hM : MruShown d n f s s' u t) (hu : Stocked d n f s u) : ∃ c cb : Nat → Rat,
    Slack n (place d (f.key false 1)) f.r.can 0 (at_ s (f.key false 1)) (at_ s' (f.key true 1))
      (fallen f.r.can * at_ s' (f.key false 11) + f.r.can.ohoriz * at_ s (f.key false 4) +
        overOuts (fun j b => b.toCan * at_ s' (.bin true f.unit j)) 1 f.bins) (c 1) t ∧
    Slack n (place d (f.key false 2)) f.r.snow 0 (at_ s (f.key false 2)) (at_ s' (f.key true 2)) (above f f.r.snow s') (c 2) t ∧
    Slack n (place d (f.key false 4)) f.r.ohoriz f.r.can.ohoriz (at_ s (f.key false 4)) (at_ s' (f.key true 4))
      (above f f.r.ohoriz s') (c 4) t ∧
    (∀ j b, f.bins[j]? = some b →
      Slack n (place d (.bin false f.unit (j + 1))) b.vol 0 (at_ s (.bin false f.unit (j + 1))) (at_ s' (.bin true f.unit (j + 1)))
        (above f b.vol s' + b.vol.sat * at_ s (f.key false 8)) (cb (j + 1)) t) ∧
    Slack n (place d (f.key false 7)) f.r.qdf 0 (at_ s (f.key false 7)) (at_ s' (f.key true 7))
      (f.r.qdf.uz * at_ s' (f.key true 13)) (c 7) t ∧
    Slack n (place d (f.key false 8)) f.r.sat (f.sat2uz + f.well) (at_ s (f.key false 8)) (at_ s' (f.key true 8))
      (above f f.r.sat s' + f.r.sat.uz * at_ s' (f.key true 13) + f.r.sat.gw1 * at_ s (.data (f.srcGw1 + 1)) +
        f.r.sat.gw2 * at_ s (.data (f.srcGw2 + 1))) (c 8) t ∧
    (0 < f.prefMax → Slack n (place d (f.key false 9)) f.r.satpref 0 (at_ s (f.key false 9)) (at_ s' (f.key true 9))
      (f.r.satpref.sat * at_ s' (f.key true 8)) (c 9) t) ∧
    t (.mru f.unit) (.mol n 3) = 1000 * (f.r.hill.out * at_ s' (f.key true 10) + f.well * at_ s (f.key false 8) +
      f.p.vol f.i.gwLoss * c 8) := by
  obtain ⟨c1, a3, a4⟩ := hS.can.rest
  obtain ⟨c2, b3, b4⟩ := hS.snow.rest
  obtain ⟨c4, d3, d4⟩ := hS.ohoriz.rest
  obtain ⟨c7, e3, e4⟩ := hS.qdf.rest
  obtain ⟨c8, g, g3, g4⟩ := hM.output
  have hb : ∀ j, ∃ c, ∀ b, f.bins[j]? = some b →
      Slack n (place d (.bin false f.unit (j + 1))) b.vol 0 (at_ s (.bin false f.unit (j + 1))) (at_ s' (.bin true f.unit (j + 1)))
        (above f b.vol s' + b.vol.sat * at_ s (f.key false 8)) c t := by
    intro j
    cases hj : f.bins[j]? with
    | none => exact ⟨0, fun b h => absurd h (by simp)⟩
    | some b =>
      obtain ⟨c, x3, x4⟩ := (hS.uz j b hj).rest
      refine ⟨c, fun b' h => ?_⟩
      cases h
      exact shown_slack (hS.uz j b hj) (hu.uz j b hj) x3 x4
  choose cb hcb using hb
  have h9 : ∃ c, 0 < f.prefMax → Slack n (place d (f.key false 9)) f.r.satpref 0 (at_ s (f.key false 9)) (at_ s' (f.key true 9))
      (f.r.satpref.sat * at_ s' (f.key true 8)) c t := by
    by_cases hp : 0 < f.prefMax
    · obtain ⟨-, -, -, -, c, -, y4, y⟩ := hS.path hp
      exact ⟨c, fun _ => ⟨y4, by linarith⟩⟩
    · exact ⟨0, fun h => absurd h hp⟩
  obtain ⟨c9, h9⟩ := h9
  refine ⟨fun i => if i = 1 then c1 else if i = 2 then c2 else if i = 4 then c4 else if i = 7 then c7 else if i = 8 then c8 else c9,
    fun j => cb (j - 1), shown_slack hS.can hu.can a3 a4, shown_slack hS.snow hu.snow b3 b4, shown_slack hS.ohoriz hu.ohoriz d3 d4,
    fun j b hj => hcb j b hj, shown_slack hS.qdf hu.qdf e3 e4, shown_slack hS.sat hu.sat g3 g4, h9, g⟩

/-- The balance of the composite: what is missing are reactions. -/
theorem mru_gap {rx : Ent → Sol → Sol} {d : Dims} {n : Nat} {f : Flow} (ho : f.Ok) (hr : f.Regular) {s s' : St} {u t : Table}
    (hm : Moved rx f s s') (hS : UnitShown d n f s s' u t) (hM : MruShown d n f s s' u t) (hu : Stocked d n f s u)
    (h1 : u (.mru f.unit) (.mol n 1) = 1000 * known f (·.init) false s) : ∃ c cb : Nat → Rat, Unreacted d n f s' t c cb ∧
      t (.mru f.unit) (.mol n 5) + t (.mru f.unit) (.mol n 3) = t (.mru f.unit) (.mol n 1) + t (.mru f.unit) (.mol n 2) +
        t (.mru f.unit) (.mol n 4) + 1000 * unseen f s s' c cb ∧
      (Inert rx → t (.mru f.unit) (.mol n 4) = 0 ∧ unseen f s s' c cb = 0) := by
  obtain ⟨c, cb, s1, s2, s4, sb, s7, s8, s9, so⟩ := unit_slack hS hM hu
  have h := ho.facts
  have m2 : f.r.snow.out * at_ s' (meltKey f s') = f.r.snow.out * c 2 := by
    rcases eq_or_ne f.r.snow.out 0 with h0 | h0
    · rw [h0, zero_mul, zero_mul]
    · obtain ⟨m, -, b, e⟩ := hm.snow
      have e2 := s2.mass
      have p1 := h.psnow.fin; have p2 := h.psnow.out
      have h00 : f.r.snow.fin + f.r.snow.out ≠ 0 := fun hh => h0 (by linarith)
      rw [b h0, mul_left_cancel₀ h00 (show (f.r.snow.fin + f.r.snow.out) * m = (f.r.snow.fin + f.r.snow.out) * c 2 by linarith)]
  have K := held_slack ho hr (s := s) (s' := s') (x1 := f.dep * at_ s' (f.key false 11) - fallenMol f s)
    (x2 := f.r.can.fin * (at_ s' (f.key true 1) - c 1) + f.r.can.out * (at_ s' (f.key true 1) - c 1))
    (x3 := f.r.snow.fin * (at_ s' (f.key true 2) - c 2))
    (x4 := f.r.ohoriz.fin * (at_ s' (f.key true 4) - c 4) + (f.r.ohoriz.out - f.r.can.ohoriz) * (at_ s' (f.key true 4) - c 4))
    (x7 := f.r.qdf.fin * (at_ s' (f.key true 7) - c 7) + f.r.qdf.out * (at_ s' (f.key true 7) - c 7))
    (x8 := f.r.sat.fin * (at_ s' (f.key true 8) - c 8) + (f.r.sat.out - f.sat2uz - f.well) * (at_ s' (f.key true 8) - c 8))
    (x9 := if 0 < f.prefMax then f.r.satpref.fin * (at_ s' (f.key true 9) - c 9) + f.r.satpref.out * (at_ s' (f.key true 9) - c 9) else 0)
    (xb := fun j b => b.vol.fin * (at_ s' (.bin true f.unit j) - cb j) + b.vol.out * (at_ s' (.bin true f.unit j) - cb j))
    (by ring) (by have := s1.mass; linarith) (by have := s2.mass; rw [m2]; linarith) (by have := s4.mass; linarith)
    (fun j b hj => by have := (sb j b hj).mass; linarith) hm.recharge (by have := s7.mass; linarith) (by have := s8.mass; linarith)
    (fun hp => by have := (s9 hp).mass; rw [if_pos hp]; linarith) (fun hp => if_neg hp) hm.hill
  rw [overOuts_add] at K
  have R : t (.mru f.unit) (.mol n 4) = 1000 * (f.r.can.fin * (at_ s' (f.key true 1) - c 1) + f.r.snow.fin * (at_ s' (f.key true 2) - c 2) +
      f.r.ohoriz.fin * (at_ s' (f.key true 4) - c 4) + f.r.qdf.fin * (at_ s' (f.key true 7) - c 7) +
      f.r.sat.fin * (at_ s' (f.key true 8) - c 8) +
      (if 0 < f.prefMax then f.r.satpref.fin * (at_ s' (f.key true 9) - c 9) else 0) +
      overOuts (fun j b => b.vol.fin * (at_ s' (.bin true f.unit j) - cb j)) 1 f.bins) := by
    rw [hM.rows 4 (Or.inl rfl)]
    unfold Flow.rows
    rw [List.map_append, List.sum_append, List.map_map, List.map_map,
      sum_range _ f.bins (fun j b => 1000 * (b.vol.fin * (at_ s' (.bin true f.unit j) - cb j))) 1 (fun j b hj => by
        rw [Function.comp, (sb j b hj).react, Nat.add_comm j 1])]
    simp only [List.map_cons, List.map_nil, List.sum_cons, List.sum_nil, Function.comp, s1.react, s2.react, s4.react, s7.react, s8.react]
    have e9 : t (.res (place d (f.key false 9))) (.mol n 4) =
        1000 * (if 0 < f.prefMax then f.r.satpref.fin * (at_ s' (f.key true 9) - c 9) else 0) := by
      split
      · rename_i hp; exact (s9 hp).react
      · rename_i hp; rw [(hS.shut hp).2.2 4 (by simp), mul_zero]
    have eb : overOuts (fun j b => 1000 * (b.vol.fin * (at_ s' (.bin true f.unit j) - cb j))) 1 f.bins =
        1000 * overOuts (fun j b => b.vol.fin * (at_ s' (.bin true f.unit j) - cb j)) 1 f.bins := by
      generalize (1 : Nat) = j0
      induction f.bins generalizing j0 with
      | nil => simp [overOuts]
      | cons b bs ih => simp only [overOuts]; rw [ih]; ring
    rw [e9, eb]
    ring
  have hout : f.p.vol f.i.gwLoss ≤ f.r.sat.out - (f.sat2uz + f.well) := by
    have := h.satOut; have := h.ppref.sat; have := h.phill.sat; linarith
  refine ⟨c, cb, ⟨s1.react, s2.react, s4.react, fun j b hj => (sb j b hj).react, s7.react, s8.react, fun hp => (s9 hp).react⟩, ?_, ?_⟩
  · rw [so, R, hM.final, hM.initial, hM.input, h1]
    unfold unseen
    split
    · rename_i hp
      rw [if_pos hp] at K
      linarith
    · rename_i hp
      rw [if_neg hp] at K
      linarith
  · intro hi
    have z1 := s1.still hi hm.can (by ring) (by ring) h.pcan.fin (by have := h.pcan.out; linarith)
    have z4 := s4.still hi hm.ohoriz (by ring) (by ring) h.poh.fin (by have := h.closed.ohoriz; have := h.phill.ohoriz; linarith)
    have z7 := s7.still hi hm.qdf (by ring) (by ring) h.pqdf.fin (by have := h.pqdf.out; linarith)
    have z8 := s8.still hi hm.sat (by ring) (by ring) h.psat.fin (by have := h.loss; linarith)
    have zd := hm.dep.mass hi
    have z2 : f.r.snow.fin * (at_ s' (f.key true 2) - c 2) = 0 := by
      rcases eq_or_ne (f.r.snow.fin + f.r.snow.out) 0 with h0 | h0
      · have := h.psnow.fin; have := h.psnow.out
        rw [show f.r.snow.fin = 0 by linarith, zero_mul]
      · obtain ⟨m, a, -, e⟩ := hm.snow
        have e2 := s2.mass
        have hc : at_ s' (f.key true 2) = m := by rw [a h0, hi.reacted]; split <;> rfl
        rw [hc, mul_left_cancel₀ h0 (show (f.r.snow.fin + f.r.snow.out) * m = (f.r.snow.fin + f.r.snow.out) * c 2 by linarith)]
        ring
    have z8' : (f.r.sat.out - f.sat2uz - f.well - f.p.vol f.i.gwLoss) * (at_ s' (f.key true 8) - c 8) = 0 := by
      rcases eq_or_ne (at_ s' (f.key true 8) - c 8) 0 with h0 | h0
      · rw [h0, mul_zero]
      · have e := (mul_eq_zero.1 z8.2).resolve_right h0
        have := h.loss
        rw [show f.r.sat.out - f.sat2uz - f.well - f.p.vol f.i.gwLoss = 0 by linarith, zero_mul]
    have zb : ∀ j b, f.bins[j]? = some b → b.vol.fin * (at_ s' (.bin true f.unit (j + 1)) - cb (j + 1)) = 0 ∧
        b.vol.out * (at_ s' (.bin true f.unit (j + 1)) - cb (j + 1)) = 0 := by
      intro j b hj
      have p := (h.pbin b (List.mem_of_getElem? hj)).1
      have e := (sb j b hj).still hi (hm.uz j b hj) (by ring) (by ring) p.fin (by have := p.out; linarith)
      exact ⟨e.1, by rw [← e.2]; ring⟩
    have zero : ∀ j0, overOuts (fun _ _ => (0 : Rat)) j0 f.bins = 0 := by
      intro j0
      induction f.bins generalizing j0 with
      | nil => rfl
      | cons b bs ih => simp [overOuts, ih]
    have zb1 : overOuts (fun j b => b.vol.fin * (at_ s' (.bin true f.unit j) - cb j)) 1 f.bins = 0 := by
      rw [← zero 1]
      exact overOuts_at _ _ _ _ fun j b hj => by rw [Nat.add_comm 1 j]; exact (zb j b hj).1
    have zb2 : overOuts (fun j b => b.vol.out * (at_ s' (.bin true f.unit j) - cb j)) 1 f.bins = 0 := by
      rw [← zero 1]
      exact overOuts_at _ _ _ _ fun j b hj => by rw [Nat.add_comm 1 j]; exact (zb j b hj).2
    have z9 : (if 0 < f.prefMax then f.r.satpref.fin * (at_ s' (f.key true 9) - c 9) else 0) = 0 ∧
        (if 0 < f.prefMax then f.r.satpref.out * (at_ s' (f.key true 9) - c 9) else 0) = 0 := by
      by_cases hp : 0 < f.prefMax
      · rw [if_pos hp, if_pos hp]
        have e := (s9 hp).still hi (hm.satpref hp) (by ring) (by ring) h.ppref.fin (by have := h.ppref.out; linarith)
        exact ⟨e.1, by rw [← e.2]; ring⟩
      · rw [if_neg hp, if_neg hp]; exact ⟨rfl, rfl⟩
    constructor
    · rw [R, z1.1, z2, z4.1, z7.1, z8.1, z9.1, zb1]; ring
    · unfold unseen
      rw [zd, show f.r.can.out * (at_ s' (f.key true 1) - c 1) = 0 by rw [← z1.2]; ring, z4.2, zb2,
        show f.r.qdf.out * (at_ s' (f.key true 7) - c 7) = 0 by rw [← z7.2]; ring, z8', z9.2]
      ring
end Verif.Transport
