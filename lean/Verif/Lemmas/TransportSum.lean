import Verif.Lemmas.TransportFlow
/-
The solute in a unit, without reactions.
-/
namespace Verif.Transport
open Verif.Reservoir (Vol Rows BinOut Par In sumOf fall inch2m)

theorem overOuts_add (g h : Nat → BinOut → Rat) (j : Nat) (bs : List BinOut) :
    overOuts (fun i b => g i b + h i b) j bs = overOuts g j bs + overOuts h j bs := by
  induction bs generalizing j with
  | nil => simp [overOuts]
  | cons b bs ih => simp only [overOuts, ih]; ring

theorem overOuts_mul (g : BinOut → Rat) (c : Rat) (j : Nat) (bs : List BinOut) :
    overOuts (fun _ b => g b * c) j bs = sumOf g bs * c := by
  induction bs generalizing j with
  | nil => simp [overOuts, sumOf_nil]
  | cons b bs ih => simp only [overOuts, ih, sumOf_cons]; ring

theorem overOuts_at (g h : Nat → BinOut → Rat) (j : Nat) (bs : List BinOut)
    (H : ∀ i b, bs[i]? = some b → g (j + i) b = h (j + i) b) : overOuts g j bs = overOuts h j bs := by
  induction bs generalizing j with
  | nil => rfl
  | cons b bs ih =>
    unfold overOuts
    rw [show g j b = h j b from H 0 b rfl, ih (j + 1)]
    intro i b' hb
    have := H (i + 1) b' (by simpa using hb)
    rwa [show j + (i + 1) = j + 1 + i by omega] at this

theorem Inert.reacted {rx : Ent → Sol → Sol} (h : Inert rx) (e : Ent) (m : Rat) : reacted rx e m = m := by
  unfold Transport.reacted Sol.conc
  rw [h.1, h.2, div_one]

theorem Taken.mass {rx : Ent → Sol → Sol} (h : Inert rx) {e : Ent} {vol c src : Rat} (ht : Taken rx e vol c src) : vol * c = src := by
  obtain ⟨m, h1, h2⟩ := ht
  rcases eq_or_ne vol 0 with h0 | h0
  · rw [← h2, h0, zero_mul, zero_mul]
  · rw [h1 h0, h.reacted, h2]

/-- What falls on a unit. -/
theorem Flow.Ok.dep_sum {f : Flow} (h : f.Ok) : f.r.mru.ppt + f.r.mru.ext + f.r.mru.well + f.r.mru.div = f.dep := by
  obtain ⟨hp, he, hw, hv⟩ := h.facts.mru
  rw [hp, he, hw, hv]
  unfold Flow.dep
  rw [h.fluxes.dep]
  split <;> split <;> ring

theorem moved_held {rx : Ent → Sol → Sol} (hi : Inert rx) {f : Flow} (ho : f.Ok) (s s' : St) (hm : Moved rx f s s')
    (hpr : 0 < f.prefMax ∨ f.r.satpref.init = 0 ∨ at_ s (f.key true 9) = at_ s (f.key false 9)) (hin : 0 < f.prefMax ∨ f.r.satpref.inp = 0) :
    held f (·.fin) true s' + f.r.hill.out * at_ s' (f.key true 10) + f.r.mru.well * at_ s (f.key false 8) +
        f.p.vol f.i.gwLoss * at_ s' (f.key true 8) =
      held f (·.init) false s + fallenMol f s + f.r.mru.gw1 * at_ s (.data (f.srcGw1 + 1)) +
        f.r.mru.gw2 * at_ s (.data (f.srcGw2 + 1)) := by
  have h := ho.facts
  have m1 := hm.dep.mass hi
  have m2 := hm.can.mass hi
  have m4 := hm.ohoriz.mass hi
  have m7 := hm.qdf.mass hi
  have m8 := hm.sat.mass hi
  have m13 := hm.recharge
  have m10 := hm.hill
  have m3 : f.r.snow.fin * at_ s' (f.key true 2) + f.r.snow.out * at_ s' (meltKey f s') =
      f.r.snow.init * at_ s (f.key false 2) + above f f.r.snow s' := by
    obtain ⟨m, a, b, c⟩ := hm.snow
    rw [← c]
    rcases eq_or_ne (f.r.snow.fin + f.r.snow.out) 0 with h0 | h0
    · have := h.psnow.fin; have := h.psnow.out
      rw [show f.r.snow.fin = 0 by linarith, show f.r.snow.out = 0 by linarith]; ring
    · have h1 : at_ s' (f.key true 2) = m := by rw [a h0, hi.reacted]; split <;> rfl
      rw [h1]
      rcases eq_or_ne f.r.snow.out 0 with h2 | h2
      · rw [h2]; ring
      · rw [b h2]; ring
  have m5 : overOuts (fun j b => b.vol.fin * at_ s' (.bin true f.unit j)) 1 f.bins +
      overOuts (fun j b => b.toCan * at_ s' (.bin true f.unit j)) 1 f.bins +
      overOuts (fun j b => (b.toSat + b.toQdf) * at_ s' (.bin true f.unit j)) 1 f.bins =
      overOuts (fun j b => b.vol.init * at_ s (.bin false f.unit j)) 1 f.bins +
      overOuts (fun _ b => fallen b.vol * at_ s' (f.key false 11)) 1 f.bins +
      overOuts (fun _ b => b.vol.can * at_ s' (f.key true 1)) 1 f.bins +
      overOuts (fun _ b => b.vol.melt * at_ s' (meltKey f s')) 1 f.bins +
      overOuts (fun _ b => b.vol.sat * at_ s (f.key false 8)) 1 f.bins := by
    rw [← overOuts_add, ← overOuts_add, ← overOuts_add, ← overOuts_add, ← overOuts_add, ← overOuts_add]
    apply overOuts_at
    intro i b hb
    have e := (hm.uz i b hb).mass hi
    have o := h.binOut b (List.mem_of_getElem? hb)
    rw [Nat.add_comm] at e
    unfold above at e
    rw [o] at e
    linarith
  simp only [overOuts_mul] at m5
  have m9 : f.r.satpref.fin * at_ s' (f.key true 9) + f.r.satpref.out * at_ s' (f.key true 9) =
      f.r.satpref.init * at_ s (f.key false 9) + f.r.satpref.sat * at_ s' (f.key true 8) := by
    by_cases hp : 0 < f.prefMax
    · have := (hm.satpref hp).mass hi
      linarith
    · have h1 := hin.resolve_left hp
      have h2 := hpr.resolve_left hp
      have h3 := h.prefIn; have h4 := h.prefOut; have h5 := h.prefFin
      rw [h5, h4, h1, ← h3, h1, hm.still hp]
      rcases h2 with h2 | h2
      · rw [h2]; ring
      · rw [h2]; ring
  have c := h.closed
  have cu := h.uz
  have q1 := c.ppt; have q2 := c.well; have q3 := c.div; have q4 := c.ext; have q5 := c.can; have q6 := c.melt
  have q7 := c.ohoriz; have q9 := c.qdf; have q10 := c.satpref; have q11 := c.sat
  obtain ⟨q12, q13⟩ := c.gw
  simp only [cu, Reservoir.column_eq, Reservoir.sumOf_map] at q1 q2 q3 q4 q5 q6 q11
  have hfs : sumOf (fun b : BinOut => fallen b.vol) f.bins = sumOf (·.vol.ppt) f.bins + sumOf (·.vol.well) f.bins +
      sumOf (·.vol.div) f.bins + sumOf (·.vol.ext) f.bins := by
    unfold fallen
    rw [Reservoir.sumOf_add, Reservoir.sumOf_add, Reservoir.sumOf_add]
  have hfall : fallen f.r.can + fallen f.r.snow + fallen f.r.ohoriz + sumOf (fun b : BinOut => fallen b.vol) f.bins + fallen f.r.sat = f.dep := by
    rw [hfs, ← ho.dep_sum]
    unfold fallen
    linarith
  have hw := h.wellIs
  have hsu : sumOf (fun b : BinOut => b.vol.sat) f.bins = f.sat2uz := rfl
  rw [hsu] at m5 q11
  have o8 := h.satOut
  have qo := h.qdfOut; have qi := h.qdfIn; have qf := h.qdfFin
  unfold held
  unfold above at m3 m4 m8
  rw [h.snowMelt] at m3
  rw [← hw] at m8
  rw [m10, ← m1, ← hfall]
  rw [← q12, ← q13]
  rw [← q5] at m2
  rw [← q6] at m3
  rw [← q7] at m4
  rw [← q9] at m7
  rw [← q10] at m9
  rw [← m13] at m5
  rw [← q11] at m8
  linarith
end Verif.Transport
