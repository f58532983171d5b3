import Verif.Lemmas.TransportMru6
import Verif.Props.TransportChem
/-
C119 The composite of a unit shows what happened in it.
-/
namespace Verif.Transport
open Verif.Reservoir (Vol Par In Start Basin BasinOut Chan StreamIn Rows BinOut)
open Verif.Chem (Ctx Call Event Table)
open Verif.SolnNum (Dims)

/-- C119: in a step, what the transport records is entered in the tables without error, and the composite of each unit shows
what entered the unit, left it, and remains.  Missing: flows that the mixing sequence does not provide for (C114);
composites of the unsaturated zone and of the basin; volumes, temperature, pH and isotopes. -/
theorem C119_step_partial (rx : Ent → Sol → Sol) (hd : Dry rx) (first : Bool) (b : Basin) (ps : List (Par × Site)) (N : Nat)
    (hb : b.Ok N) (v : Reservoir.St) (s : St) (x : List In × StreamIn × List Rat) (hv : Sized ps N v) (hx : Fits ps x)
    (hF : Full s.sol) (v' : Reservoir.St) (s' : St) (o : Reservoir.Out) (fs : List Flow)
    (h : couple rx first b ps v s x = some (v', s', o, fs)) (hs : Smooth (v', s', o, fs)) (d : Dims) (hin : Inside d ps N) (n : Nat)
    (z : Nat → Ctx × Call) (hz : ∀ i, Known n (z i).1) (u : Table) (hu : Blank n (opened first u)) (hu' : BlankUnits n (opened first u)) :
    ∃ t, enterAll d n z first u s'.log = some t ∧ ∀ f ∈ fs, MruShown d n f (begin first fs N s) s' (opened first u) t := by
  obtain ⟨-, t, h1, -, h2, -⟩ := couple_shown hd hb hv hx hF h hs hin hz hu
  exact ⟨t, h1, h2 hu'⟩

/-- C119 for all steps of a run: if the tables start with the amounts that are there, the composites show what happened in
each step, and they balance but for the reactions of water that has left its reservoir by the end of the step. -/
theorem C119_run_partial (rx : Ent → Sol → Sol) (hd : Dry rx) (b : Basin) (ps : List (Par × Site)) (N : Nat) (hb : b.Ok N)
    (d : Dims) (hin : Inside d ps N) (n : Nat) (xs : List (List In × StreamIn × List Rat)) (hx : ∀ x ∈ xs, Fits ps x) (v : Reservoir.St)
    (s : St) (hv : Sized ps N v) (hF : Full s.sol) (rs : List (Reservoir.St × St × Reservoir.Out × List Flow))
    (h : run rx b ps true v s xs = some rs) (hs : ∀ r ∈ rs, Smooth r) (zs : List (Nat → Ctx × Call)) (hzl : zs.length = rs.length)
    (hz : ∀ z ∈ zs, ∀ i, Known n (z i).1) (u : Table) (hu : Blank n u) (hu' : BlankUnits n u)
    (hst : ∀ r, rs[0]? = some r → ∀ f ∈ r.2.2.2, Stocked d n f s u ∧ u (.mru f.unit) (.mol n 1) = 1000 * known f (·.init) false s) :
    ∃ ts, tables d n true u (zs.zip (rs.map fun r => r.2.1.log)) = some ts ∧ MruAllShown d n N true s u rs ts := by
  obtain ⟨ts, h1, h2, -⟩ := run_mru hd hb hin xs hx true v s hv hF rs h hs zs hzl hz u hu hu' fun r hr f hf => by
    obtain ⟨e, e'⟩ := hst r hr f hf
    exact ⟨⟨e.can, e.snow, e.ohoriz, e.uz, e.qdf, e.sat, e.satpref⟩, e'⟩
  exact ⟨ts, h1, h2⟩

/-- C119 for solutes that do not react: in each step of a run the composites balance, and show no reactions. -/
theorem C119_even_partial (rx : Ent → Sol → Sol) (hi : Inert rx) (b : Basin) (ps : List (Par × Site)) (N : Nat) (hb : b.Ok N)
    (d : Dims) (hin : Inside d ps N) (n : Nat) (xs : List (List In × StreamIn × List Rat)) (hx : ∀ x ∈ xs, Fits ps x) (v : Reservoir.St)
    (s : St) (hv : Sized ps N v) (hF : Full s.sol) (rs : List (Reservoir.St × St × Reservoir.Out × List Flow))
    (h : run rx b ps true v s xs = some rs) (hs : ∀ r ∈ rs, Smooth r) (zs : List (Nat → Ctx × Call)) (hzl : zs.length = rs.length)
    (hz : ∀ z ∈ zs, ∀ i, Known n (z i).1) (u : Table) (hu : Blank n u) (hu' : BlankUnits n u)
    (hst : ∀ r, rs[0]? = some r → ∀ f ∈ r.2.2.2, Stocked d n f s u ∧ u (.mru f.unit) (.mol n 1) = 1000 * known f (·.init) false s) :
    ∃ ts, tables d n true u (zs.zip (rs.map fun r => r.2.1.log)) = some ts ∧ MruAllEven n rs ts := by
  obtain ⟨ts, h1, -, h2⟩ := run_mru hi.1 hb hin xs hx true v s hv hF rs h hs zs hzl hz u hu hu' fun r hr f hf => by
    obtain ⟨e, e'⟩ := hst r hr f hf
    exact ⟨⟨e.can, e.snow, e.ohoriz, e.uz, e.qdf, e.sat, e.satpref⟩, e'⟩
  exact ⟨ts, h1, h2 hi⟩

/-! ### The basin of two units -/

/-- The tables at the start, with composites. -/
def stocks (d : Dims) (fs : List Flow) (s : St) : Table := fun a g =>
  match a, g with
  | .mru i, .mol 1 1 => ((fs.find? fun f => f.unit = i).map fun f => 1000 * known f (·.init) false s).getD 0
  | a, g => stock d fs s a g

theorem stocks_blank (d : Dims) (fs : List Flow) (s : St) : Blank 1 (stocks d fs s) ∧ BlankUnits 1 (stocks d fs s) := by
  constructor <;> rintro r s (rfl | rfl | rfl | rfl) <;> rfl

theorem evening_stocks : ∀ f ∈ evening.2.2.2, Stocked sizes 1 f begun (stocks sizes evening.2.2.2 begun) ∧
    stocks sizes evening.2.2.2 begun (.mru f.unit) (.mol 1 1) = 1000 * known f (·.init) false begun := by
  intro f hf
  have e := evening_stocked f hf
  refine ⟨⟨e.can, e.snow, e.ohoriz, e.uz, e.qdf, e.sat, e.satpref⟩, ?_⟩
  clear e
  revert f
  decide +kernel

theorem two_days_fit : ∀ x ∈ [day1, day2], Fits [plot, plot] x := by
  intro x hx
  simp only [List.mem_cons, List.not_mem_nil, or_false] at hx
  rcases hx with rfl | rfl
  · exact fits_two _ _ _ _ _ rfl rfl
  · exact fits_two _ _ _ _ _ rfl rfl

theorem two_days_smooth : ∀ r ∈ [evening, night], Smooth r := by
  intro r hr
  simp only [List.mem_cons, List.not_mem_nil, or_false] at hr
  rcases hr with rfl | rfl
  · exact evening_smooth
  · exact night_smooth

theorem plain_known : ∀ z ∈ [plain, plain], ∀ i, Known 1 (z i).1 := by
  intro z hz i
  simp only [List.mem_cons, List.not_mem_nil, or_false, or_self] at hz
  subst hz
  exact ⟨by simp [Chem.isSolute, plain], rfl⟩

/-- C119 applies to a run of two days. -/
theorem two_days_units : ∃ ts, tables sizes 1 true (stocks sizes evening.2.2.2 begun)
      ([plain, plain].zip [evening.2.1.log, night.2.1.log]) = some ts ∧
    MruAllShown sizes 1 2 true begun (stocks sizes evening.2.2.2 begun) [evening, night] ts :=
  C119_run_partial calm calm_inert.1 creek [plot, plot] 2 creek_ok sizes sizes_inside 1 [day1, day2] two_days_fit
    wet begun wet_sized begun_full [evening, night] two_days two_days_smooth [plain, plain] rfl plain_known
    _ (stocks_blank _ _ _).1 (stocks_blank _ _ _).2 (fun r hr => by cases hr; exact evening_stocks)

theorem two_days_even : ∃ ts, tables sizes 1 true (stocks sizes evening.2.2.2 begun)
      ([plain, plain].zip [evening.2.1.log, night.2.1.log]) = some ts ∧ MruAllEven 1 [evening, night] ts :=
  C119_even_partial calm calm_inert creek [plot, plot] 2 creek_ok sizes sizes_inside 1 [day1, day2] two_days_fit
    wet begun wet_sized begun_full [evening, night] two_days two_days_smooth [plain, plain] rfl plain_known
    _ (stocks_blank _ _ _).1 (stocks_blank _ _ _).2 (fun r hr => by cases hr; exact evening_stocks)

/-- Solute falls on the units, comes from other groundwater, goes to the stream, is taken from wells and lost. -/
example : ∃ f, f ∈ evening.2.2.2 ∧ fallenMol f begun ≠ 0 ∧ f.r.hill.out * at_ evening.2.1 (f.key true 10) ≠ 0 ∧
    f.well * at_ begun (f.key false 8) ≠ 0 ∧ f.p.vol f.i.gwLoss * at_ evening.2.1 (f.key true 8) ≠ 0 ∧
    f.r.sat.gw1 * at_ begun (.data (f.srcGw1 + 1)) ≠ 0 := by
  refine ⟨evening.2.2.2[0]'(by decide +kernel), List.getElem_mem _, ?_⟩
  decide +kernel

/-! ### Where the composite does not balance -/

/-- The first of the two days, with precipitation of the solute in the saturated zone. -/
def storm : Reservoir.St × St × Reservoir.Out × List Flow :=
  (couple settles true creek [plot, plot] wet begun day1).get (by decide +kernel)

theorem storm_eq : couple settles true creek [plot, plot] wet begun day1 = some storm := (Option.some_get _).symm

theorem storm_smooth : Smooth storm := by
  refine couple_smooth wet_sized (fits_two rain rain _ _ _ rfl rfl) storm_eq (fun p hp => ?_) ?_ (by decide +kernel) (by decide +kernel)
  · simp only [List.mem_cons, List.not_mem_nil, or_false, or_self] at hp
    subst hp; exact park_ok
  · intro k p w i hp hw hi
    rcases k with _ | _ | k
    · cases hp; cases hw; cases hi; exact ⟨rain_ok, by decide +kernel, by decide +kernel, by decide +kernel⟩
    · cases hp; cases hw; cases hi; exact ⟨rain_ok, by decide +kernel, by decide +kernel, by decide +kernel⟩
    · exact absurd hp (by simp)

/-- The flows are those of `evening`. -/
theorem storm_stocks : ∀ f ∈ storm.2.2.2, Stocked sizes 1 f begun (stocks sizes storm.2.2.2 begun) ∧
    stocks sizes storm.2.2.2 begun (.mru f.unit) (.mol 1 1) = 1000 * known f (·.init) false begun := by
  have e : storm.2.2.2 = evening.2.2.2 := by
    have h1 := storm_eq
    have h2 := evening_eq
    generalize storm = r at h1
    generalize evening = q at h2
    obtain ⟨_, _, o, _⟩ := r
    obtain ⟨_, _, o', _⟩ := q
    obtain ⟨a, b, -⟩ := couple_eq h1
    obtain ⟨a', b', -⟩ := couple_eq h2
    have e := congrArg Prod.snd (Option.some.inj (a.symm.trans a'))
    dsimp only at e ⊢
    rw [b, b', e]
  rw [e]
  exact evening_stocks

/-- C119 fails where there are reactions: the composite of a unit does not balance, even if its initial amount is right. -/
theorem C119_reaction_violated : ∃ rx, Dry rx ∧ ∃ r, couple rx true creek [plot, plot] wet begun day1 = some r ∧ Smooth r ∧
    ∃ u t, Blank 1 u ∧ BlankUnits 1 u ∧
      (∀ f ∈ r.2.2.2, Stocked sizes 1 f begun u ∧ u (.mru f.unit) (.mol 1 1) = 1000 * known f (·.init) false begun) ∧
      enterAll sizes 1 plain true u r.2.1.log = some t ∧ ¬ MruEven 1 2 t := by
  refine ⟨settles, settles_dry, storm, storm_eq, storm_smooth, stocks sizes storm.2.2.2 begun,
    (enterAll sizes 1 plain true (stocks sizes storm.2.2.2 begun) storm.2.1.log).get (by decide +kernel), (stocks_blank _ _ _).1,
    (stocks_blank _ _ _).2, storm_stocks, (Option.some_get _).symm, ?_⟩
  unfold MruEven
  decide +kernel

/-- C119 fails where there is no path of deep preferential flow: the composite leaves out the solute in its water. -/
theorem C119_path_violated (rx : Ent → Sol → Sol) (hd : Dry rx) (first : Bool) (b : Basin) (ps : List (Par × Site)) (N : Nat)
    (hb : b.Ok N) (v : Reservoir.St) (s : St) (x : List In × StreamIn × List Rat) (hv : Sized ps N v) (hx : Fits ps x)
    (hF : Full s.sol) (v' : Reservoir.St) (s' : St) (o : Reservoir.Out) (fs : List Flow)
    (h : couple rx first b ps v s x = some (v', s', o, fs)) (hs : Smooth (v', s', o, fs)) (d : Dims) (hin : Inside d ps N) (n : Nat)
    (z : Nat → Ctx × Call) (hz : ∀ i, Known n (z i).1) (u : Table) (hu : Blank n (opened first u)) (hu' : BlankUnits n (opened first u)) :
    ∃ t, enterAll d n z first u s'.log = some t ∧ ∀ f ∈ fs, ¬ 0 < f.prefMax →
      t (.mru f.unit) (.mol n 5) = 1000 * (held f (·.fin) true s' - f.r.satpref.fin * at_ s' (f.key true 9)) := by
  obtain ⟨t, h1, h2⟩ := C119_step_partial rx hd first b ps N hb v s x hv hx hF v' s' o fs h hs d hin n z hz u hu hu'
  exact ⟨t, h1, fun f hf hp => by rw [(h2 f hf).final, known, if_neg hp]⟩

/-- It applies to water with solute in it. -/
example : (∃ t, enterAll sizes 1 plain true (fun _ _ => 0) dusk.2.1.log = some t ∧ ∀ f ∈ dusk.2.2.2, ¬ 0 < f.prefMax →
      t (.mru f.unit) (.mol 1 5) = 1000 * (held f (·.fin) true dusk.2.1 - f.r.satpref.fin * at_ dusk.2.1 (f.key true 9))) ∧
    dusk.2.2.2.length = 2 ∧ ∀ f ∈ dusk.2.2.2, ¬ 0 < f.prefMax ∧ f.r.satpref.fin * at_ dusk.2.1 (f.key true 9) ≠ 0 :=
  ⟨C119_path_violated calm calm_inert.1 true creek [blocked, blocked] 2 creek_ok wet begun day0 wet_blocked day0_fits begun_full
    dusk.1 dusk.2.1 dusk.2.2.1 dusk.2.2.2 dusk_eq dusk_smooth sizes
    (by
      refine ⟨⟨by decide, by decide, by decide, by decide⟩, by decide, by decide, ?_, by decide, ?_, ?_⟩ <;>
        (intro p hp; simp only [List.mem_cons, List.not_mem_nil, or_false, or_self] at hp; subst hp; decide))
    1 plain (fun i => ⟨by simp [Chem.isSolute, plain], rfl⟩) _ (fun _ _ _ => rfl) (fun _ _ _ => rfl), by decide +kernel, by decide +kernel⟩

end Verif.Transport
