import Verif.Lemmas.TransportRecorded
import Verif.Props.Transport
/-
C117: what is recorded of the transport is what happened.
-/
namespace Verif.Transport
open Verif.Reservoir (Vol Rows BinOut Par In sumOf fall inch2m Start BinIn)

/-- C117: whatever the reactions, what a unit records in a step are the volumes of its reservoirs, the amounts that
entered and left them, and one reaction for each that holds water. -/
theorem C117_unit_partial (rx : Ent → Sol → Sol) (hd : Dry rx) (f : Flow) (ho : f.Ok) (hr : f.Regular) (s : St)
    (hF : Full s.sol) : ∃ l, (flow rx f s).log = s.log ++ l ∧ Recorded f s (flow rx f s) l :=
  flow_recorded hd ho hr s hF

theorem Booked.inert {v : Vol} {pre c0 c1 src : Rat} {k : Key} {l : List Ev} (h : Booked v pre c0 c1 src k l)
    (hm : (v.fin + v.out - pre) * c1 = (v.init - pre) * c0 + src) (hf : 0 ≤ v.fin) (h0 : 0 ≤ pre) (ho : pre ≤ v.out) :
    v.fin * c1 + recOut k l = v.init * c0 + recIn k l ∧ (∀ c t, recEnd k l = [(c, t)] → (v.out - pre) * c = (v.out - pre) * c1) := by
  have e := h.inp
  rcases h.rest with ⟨c, t, h1, h2, h3, -⟩ | ⟨h1, h2, -, z1, z2, z3⟩
  · rw [h2, e] at h3
    have hz : (v.fin + v.out - pre) * (c - c1) = 0 := by linarith
    rw [h1, h2, e]
    rcases mul_eq_zero.1 hz with hz | hz
    · have hf0 : v.fin = 0 := by linarith
      have ho0 : v.out = pre := by linarith
      refine ⟨?_, fun c' t' _ => by rw [ho0]; ring⟩
      rw [hf0, ho0] at h3 ⊢
      linarith
    · have : c1 = c := by linarith
      refine ⟨by rw [this]; linarith, fun c' t' hc => ?_⟩
      simp only [List.cons.injEq, Prod.mk.injEq, and_true] at hc
      rw [this, hc.1]
  · have hp : pre = 0 := le_antisymm (by rw [z2] at ho; exact ho) h0
    rw [h2, z1, z3, e]
    rw [z1, z2, z3, hp] at hm
    exact ⟨by linarith, fun c t hc => by rw [h1] at hc; exact absurd hc (by simp)⟩

/-- C117: without reactions the tables of all rows of a unit balance. -/
theorem C117_balance_partial (rx : Ent → Sol → Sol) (hi : Inert rx) (f : Flow) (ho : f.Ok) (hr : f.Regular) (s : St)
    (hF : Full s.sol) :
    ∃ l, (flow rx f s).log = s.log ++ l ∧ Recorded f s (flow rx f s) l ∧ Balanced f s (flow rx f s) l := by
  obtain ⟨l, hl, hrec⟩ := flow_recorded hi.1 ho hr s hF
  obtain ⟨-, -, hm⟩ := flow_moved hi.1 ho hr s hF
  generalize flow rx f s = s' at hl hrec hm
  have h := ho.facts
  refine ⟨l, hl, hrec, ?_⟩
  have m2 := hm.can.mass hi
  have m4 := hm.ohoriz.mass hi
  have m7 := hm.qdf.mass hi
  have m8 := hm.sat.mass hi
  have m3 : (f.r.snow.fin + f.r.snow.out) * at_ s' (f.key true 2) =
      f.r.snow.init * at_ s (f.key false 2) + above f f.r.snow s' := by
    obtain ⟨m, a, b, c⟩ := hm.snow
    rw [← c]
    rcases eq_or_ne (f.r.snow.fin + f.r.snow.out) 0 with h0 | h0
    · rw [h0]; ring
    · rw [a h0, hi.reacted]; split <;> rfl
  have hout := h.satOut
  have := h.sat2uz; have := h.well; have := h.loss; have := h.ppref.sat; have := h.phill.sat; have := h.pcan.ohoriz
  have hs := hrec.sat.inert (by linarith) h.psat.fin (by linarith) (by linarith)
  obtain ⟨c, t, e8, eL⟩ := hrec.left
  have hc := hs.2 c t e8
  have hc' : ∀ x, 0 ≤ x → x ≤ f.r.sat.out - (f.sat2uz + f.well) → x * c = x * at_ s' (f.key true 8) := by
    intro x h0 h1
    rcases eq_or_ne (f.r.sat.out - (f.sat2uz + f.well)) 0 with hz | hz
    · rw [le_antisymm (hz ▸ h1) h0]; ring
    · rw [mul_left_cancel₀ hz hc]
  constructor
  case can => exact (hrec.can.inert (by linarith) h.pcan.fin le_rfl h.pcan.out).1
  case snow => exact (hrec.snow.inert (by linarith) h.psnow.fin le_rfl h.psnow.out).1
  case ohoriz =>
    have hx : f.r.can.ohoriz ≤ f.r.ohoriz.out := by
      have := h.closed.ohoriz
      have := h.phill.ohoriz
      linarith
    exact (hrec.ohoriz.inert (by linarith) h.poh.fin h.pcan.ohoriz hx).1
  case uz =>
    intro j b hb
    have hp := (h.pbin b (List.mem_of_getElem? hb)).1
    have := (hm.uz j b hb).mass hi
    exact ((hrec.uz j b hb).inert (by linarith) hp.fin le_rfl hp.out).1
  case qdf => exact (hrec.qdf.inert (by linarith) h.pqdf.fin le_rfl h.pqdf.out).1
  case sat => exact hs.1
  case satpref =>
    intro hp
    obtain ⟨c', t', e8', eI, hB⟩ := hrec.satpref hp
    have ec : c' = c := by rw [e8] at e8'; simp only [List.cons.injEq, Prod.mk.injEq, and_true] at e8'; exact e8'.1.symm
    have m9 := (hm.satpref hp).mass hi
    have hb : f.r.satpref.sat = 0 ∨ c' = at_ s' (f.key true 8) := by
      rcases eq_or_ne f.r.satpref.sat 0 with hz | hz
      · exact Or.inl hz
      · have := hc' f.r.satpref.sat h.ppref.sat (by linarith)
        exact Or.inr (ec.trans (mul_left_cancel₀ hz this))
    exact ((hB hb).inert (by linarith) h.ppref.fin le_rfl h.ppref.out).1
  case left => rw [eL]; exact hc' _ h.loss (by linarith)

/-- The hypotheses hold in this case, and the amounts recorded are not zero: groundwater lost and gained, water for
irrigation, deep preferential flow. -/
example : (∃ l, (flow calm rainy begun).log = [] ++ l ∧ Recorded rainy begun (flow calm rainy begun) l ∧
    Balanced rainy begun (flow calm rainy begun) l) ∧
    recLeave rainy.unit (flow calm rainy begun).log ≠ 0 ∧ recEnter rainy.unit (flow calm rainy begun).log ≠ 0 ∧
    recOut (.seg false rainy.srcInt) (flow calm rainy begun).log ≠ 0 ∧ recIn (rainy.key false 9) (flow calm rainy begun).log ≠ 0 :=
  ⟨C117_balance_partial calm ⟨fun _ _ => rfl, fun _ _ => rfl⟩ rainy rainy_ok rainy_regular begun begun_full,
    by decide +kernel, by decide +kernel, by decide +kernel, by decide +kernel⟩

/-! ### Where the record is not what happened -/

/-- Half of the solute precipitates in the saturated zone. -/
def settles (e : Ent) (s : Sol) : Sol := if e = .res (rainy.key true 8) then ⟨s.water, s.mol / 2⟩ else s

theorem settles_dry : Dry settles := fun e s => by unfold settles; split <;> rfl

/-- C117 fails where there are reactions: water lost to deep groundwater and deep preferential flow are recorded with the
concentration before reactions, while the solution transported is that after reactions. -/
theorem C117_reaction_violated : ∃ rx, Dry rx ∧ ∃ f : Flow, f.Ok ∧ f.Regular ∧ Full begun.sol ∧
    recIn (f.key false 9) (flow rx f begun).log = 2 * (f.r.satpref.sat * at_ (flow rx f begun) (f.key true 8)) ∧
    f.r.satpref.sat * at_ (flow rx f begun) (f.key true 8) ≠ 0 ∧
    recLeave f.unit (flow rx f begun).log = 2 * (f.p.vol f.i.gwLoss * at_ (flow rx f begun) (f.key true 8)) ∧
    f.p.vol f.i.gwLoss * at_ (flow rx f begun) (f.key true 8) ≠ 0 :=
  ⟨settles, settles_dry, rainy, rainy_ok, rainy_regular, begun_full, by decide +kernel, by decide +kernel, by decide +kernel, by decide +kernel⟩

/-- Half of the solute leaves for the atmosphere. -/
def airs (e : Ent) (s : Sol) : Sol := if e = .atm then ⟨s.water, s.mol / 2⟩ else s

/-- C117 fails where deposition exchanges with the atmosphere: it is recorded as it was before, on its own row; as an input
of the reservoirs it is recorded as it is after. -/
theorem C117_atmosphere_violated : ∃ rx, Dry rx ∧ ∃ f : Flow, f.Ok ∧ f.Regular ∧ Full begun.sol ∧
    recIn (f.key false 11) (flow rx f begun).log = 2 * (f.dep * at_ (flow rx f begun) (f.key false 11)) ∧
    f.dep * at_ (flow rx f begun) (f.key false 11) ≠ 0 :=
  ⟨airs, fun e s => by unfold airs; split <;> rfl, rainy, rainy_ok, rainy_regular, begun_full, by decide +kernel, by decide +kernel⟩

/-- Without a path of deep preferential flow. -/
def shut : Flow := { Flow.make park before { rain with qpref := 0 } (1 / 1000) 1 with prefMax := 0 }

/-- C117 fails where there is no path of deep preferential flow: volumes are recorded for it, but no reaction, so that its
row has no final amount. -/
theorem C117_path_violated : ∃ f : Flow, f.Ok ∧ f.Regular ∧ Full begun.sol ∧ f.r.satpref.fin ≠ 0 ∧
    recVol (f.key false 9) (flow calm f begun).log = [(f.r.satpref.init, f.r.satpref.et, f.r.satpref.fin)] ∧
    recEnd (f.key false 9) (flow calm f begun).log = [] := by
  have h : (Flow.make park before { rain with qpref := 0 } (1 / 1000) 1).Ok :=
    Flow.make_ok _ _ _ _ _ (by decide +kernel) park_ok
      ⟨rfl, by decide +kernel, Or.inr (by decide +kernel), by decide +kernel, by decide +kernel, by decide +kernel, by decide +kernel,
        by decide +kernel⟩
      ⟨by decide +kernel, by decide +kernel, by decide +kernel⟩ rfl ⟨by decide +kernel, by decide +kernel, by decide +kernel⟩
  refine ⟨shut, ⟨h.par, h.fluxes, h.made, ⟨h.nonneg.rows, h.nonneg.bins, h.nonneg.loss⟩⟩, ?_, begun_full, by decide +kernel, by decide +kernel,
    by decide +kernel⟩
  constructor <;> decide +kernel

end Verif.Transport
