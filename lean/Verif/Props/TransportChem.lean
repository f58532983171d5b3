import Verif.Lemmas.TransportChem6
import Verif.Props.TransportBasin
import Verif.Props.TransportLog
/-
C118 The chemistry tables show what happened.
-/
namespace Verif.Transport
open Verif.Reservoir (Vol Par In Start Basin BasinOut Chan StreamIn Rows BinOut)
open Verif.Chem (Ctx Call Event Table)
open Verif.SolnNum (Dims)

/-- C118: in a step, what the transport records is entered in the tables without error, and the rows of each unit show what
happened in it.  Missing: flows that the mixing sequence does not provide for (C114); rows of the streams and of
composites other than units (for those C119); isotopes. -/
theorem C118_step_partial (rx : Ent → Sol → Sol) (hd : Dry rx) (first : Bool) (b : Basin) (ps : List (Par × Site)) (N : Nat)
    (hb : b.Ok N) (v : Reservoir.St) (s : St) (x : List In × StreamIn × List Rat) (hv : Sized ps N v) (hx : Fits ps x)
    (hF : Full s.sol) (v' : Reservoir.St) (s' : St) (o : Reservoir.Out) (fs : List Flow)
    (h : couple rx first b ps v s x = some (v', s', o, fs)) (hs : Smooth (v', s', o, fs)) (d : Dims) (hin : Inside d ps N) (n : Nat)
    (z : Nat → Ctx × Call) (hz : ∀ i, Known n (z i).1) (u : Table) (hu : Blank n (opened first u)) :
    ∃ t, enterAll d n z first u s'.log = some t ∧
      ∀ f ∈ fs, UnitShown d n f (begin first fs N s) { s' with pulse := f.pulses } (opened first u) t := by
  obtain ⟨-, t, h1, h2, -, -⟩ := couple_shown hd hb hv hx hF h hs hin hz hu
  exact ⟨t, h1, h2⟩

/-- C118 for all steps of a run: if the tables start with the amounts that are there, they go on to do so, they show what
happened in each step, and the rows balance. -/
theorem C118_run_partial (rx : Ent → Sol → Sol) (hd : Dry rx) (b : Basin) (ps : List (Par × Site)) (N : Nat) (hb : b.Ok N)
    (d : Dims) (hin : Inside d ps N) (n : Nat) (xs : List (List In × StreamIn × List Rat)) (hx : ∀ x ∈ xs, Fits ps x) (v : Reservoir.St)
    (s : St) (hv : Sized ps N v) (hF : Full s.sol) (rs : List (Reservoir.St × St × Reservoir.Out × List Flow))
    (h : run rx b ps true v s xs = some rs) (hs : ∀ r ∈ rs, Smooth r) (zs : List (Nat → Ctx × Call)) (hzl : zs.length = rs.length)
    (hz : ∀ z ∈ zs, ∀ i, Known n (z i).1) (u : Table) (hu : Blank n u)
    (hst : ∀ r, rs[0]? = some r → ∀ f ∈ r.2.2.2, Stocked d n f s u) :
    ∃ ts, tables d n true u (zs.zip (rs.map fun r => r.2.1.log)) = some ts ∧ AllShown d n N true s u rs ts :=
  run_shown hd hb hin xs hx true v s hv hF rs h hs zs hzl hz u hu fun r hr f hf => by
    have e := hst r hr f hf
    exact ⟨e.can, e.snow, e.ohoriz, e.uz, e.qdf, e.sat, e.satpref⟩

/-- C118 fails where there is no path of deep preferential flow: the water that is there has its volume in the tables, but no
amount of solute. -/
theorem C118_path_violated (rx : Ent → Sol → Sol) (hd : Dry rx) (first : Bool) (b : Basin) (ps : List (Par × Site)) (N : Nat)
    (hb : b.Ok N) (v : Reservoir.St) (s : St) (x : List In × StreamIn × List Rat) (hv : Sized ps N v) (hx : Fits ps x)
    (hF : Full s.sol) (v' : Reservoir.St) (s' : St) (o : Reservoir.Out) (fs : List Flow)
    (h : couple rx first b ps v s x = some (v', s', o, fs)) (hs : Smooth (v', s', o, fs)) (d : Dims) (hin : Inside d ps N) (n : Nat)
    (z : Nat → Ctx × Call) (hz : ∀ i, Known n (z i).1) (u : Table) (hu : Blank n (opened first u)) :
    ∃ t, enterAll d n z first u s'.log = some t ∧ ∀ f ∈ fs, ¬ 0 < f.prefMax →
      t (.res (place d (f.key false 9))) (.vol 5) = f.r.satpref.fin ∧ t (.res (place d (f.key false 9))) (.mol n 5) = 0 := by
  obtain ⟨t, h1, h2⟩ := C118_step_partial rx hd first b ps N hb v s x hv hx hF v' s' o fs h hs d hin n z hz u hu
  exact ⟨t, h1, fun f hf hp => ⟨((h2 f hf).shut hp).1, ((h2 f hf).shut hp).2.2 5 (by simp)⟩⟩

/-- C118 fails for rain: if the reservoir kind left by an earlier call is that of a stream, it is entered as an input of the
streams. -/
theorem C118_rain_violated (d : Dims) (n : Nat) (z : Ctx × Call) (hz : Known n z.1) (h : z.2.restype = 99) (vol conc tal : Rat)
    (t : Table) : ∃ t', Chem.run (told d n z (.call (.data 1) 2 vol conc tal false false false)) t = some t' ∧
      t' .hyd (.mol n 2) = t .hyd (.mol n 2) + 1000 * (vol * conc) ∧ t' .hyd (.vol 2) = t .hyd (.vol 2) + vol := by
  have hF : Chem.Flow (context z (.data 1)) (entry d n z (.data 1) 2 vol conc tal false false false) :=
    ⟨Or.inr (Or.inl rfl), rfl, Or.inl (by simp [entry, h])⟩
  obtain ⟨t', h1, h2⟩ := Chem.updateChem_flow _ _ t hF
  have hc : Chem.concerns (context z (.data 1)) (entry d n z (.data 1) 2 vol conc tal false false false) .hyd = true := by
    simp [Chem.concerns, entry, h]
  refine ⟨t', by simp [told, Chem.run, Chem.step, h1], ?_, ?_⟩
  · have hs : Chem.isSolute (context z (.data 1)) n = true := hz.1
    rw [h2, if_pos hc]
    simp only [Chem.amount, Chem.Call.slot, hs]
    simp [entry]
    ring
  · rw [h2, if_pos hc]
    simp [Chem.amount, Chem.Call.slot, entry]

/-! ### The basin of two units -/

def sizes : Dims := ⟨4, 2, 3, 2, fun _ => 3⟩

/-- One solute, no isotopes. -/
def plain : Nat → Ctx × Call := fun i =>
  (⟨1, true, 2, 50, 20, 1, fun _ => false, 3, fun _ => 1⟩,
    ⟨0, 0, 0, fun _ => 0, fun _ => 0, 7, 12, fun _ => 0, fun _ _ => i, fun _ => 0, false, false, 99, false⟩)

/-- The amounts of a unit at the start. -/
def amounts (d : Dims) (f : Flow) (s : St) : List (Int × Rat) :=
  [(1, f.r.can), (2, f.r.snow), (4, f.r.ohoriz), (7, f.r.qdf), (8, f.r.sat), (9, f.r.satpref)].map (fun c =>
      (place d (f.key false c.1), 1000 * (c.2.init * at_ s (f.key false c.1)))) ++
    (List.range f.bins.length).map fun j =>
      (place d (.bin false f.unit (j + 1)), 1000 * ((f.bins.map (·.vol.init)).getD j 0 * at_ s (.bin false f.unit (j + 1))))

/-- The tables at the start. -/
def stock (d : Dims) (fs : List Flow) (s : St) : Table := fun a g =>
  match a, g with
  | .res r, .mol 1 1 => (((fs.flatMap fun f => amounts d f s).find? fun c => c.1 = r).map (·.2)).getD 0
  | _, _ => 0

theorem sizes_inside : Inside sizes [plot, plot] 2 := by
  refine ⟨⟨by decide, by decide, by decide, by decide⟩, by decide, by decide, ?_, by decide, ?_, ?_⟩ <;>
    (intro p hp; simp only [List.mem_cons, List.not_mem_nil, or_false, or_self] at hp; subst hp; decide)

theorem stock_blank (d : Dims) (fs : List Flow) (s : St) : Blank 1 (stock d fs s) := by
  rintro r s (rfl | rfl | rfl | rfl) <;> rfl

theorem evening_stocked : ∀ f ∈ evening.2.2.2, Stocked sizes 1 f begun (stock sizes evening.2.2.2 begun) := by
  intro f hf
  have hb : ∀ f ∈ evening.2.2.2, ∀ j < f.bins.length, stock sizes evening.2.2.2 begun (.res (place sizes (.bin false f.unit (j + 1)))) (.mol 1 1) =
      1000 * ((f.bins.map (·.vol.init)).getD j 0 * at_ begun (.bin false f.unit (j + 1))) := by decide +kernel
  refine ⟨?_, ?_, ?_, ?_, ?_, ?_, fun _ => ?_⟩
  · revert f; decide +kernel
  · revert f; decide +kernel
  · revert f; decide +kernel
  · intro j b hj
    rw [hb f hf j (List.getElem?_eq_some_iff.1 hj).1, List.getD_eq_getElem?_getD, List.getElem?_map, hj]
    rfl
  · revert f; decide +kernel
  · revert f; decide +kernel
  · revert f; decide +kernel

/-- C118 applies to a run of two days. -/
theorem two_days_shown : ∃ ts, tables sizes 1 true (stock sizes evening.2.2.2 begun) ([plain, plain].zip [evening.2.1.log, night.2.1.log]) = some ts ∧
    AllShown sizes 1 2 true begun (stock sizes evening.2.2.2 begun) [evening, night] ts :=
  C118_run_partial calm calm_inert.1 creek [plot, plot] 2 creek_ok sizes sizes_inside 1 [day1, day2]
    (by
      intro x hx
      simp only [List.mem_cons, List.not_mem_nil, or_false] at hx
      rcases hx with rfl | rfl
      · exact fits_two _ _ _ _ _ rfl rfl
      · exact fits_two _ _ _ _ _ rfl rfl)
    wet begun wet_sized begun_full [evening, night] two_days
    (by
      intro r hr
      simp only [List.mem_cons, List.not_mem_nil, or_false] at hr
      rcases hr with rfl | rfl
      · exact evening_smooth
      · exact night_smooth)
    [plain, plain] rfl
    (by
      intro z hz i
      simp only [List.mem_cons, List.not_mem_nil, or_false, or_self] at hz
      subst hz
      exact ⟨by simp [Chem.isSolute, plain], rfl⟩)
    _ (stock_blank _ _ _) (fun r hr => by cases hr; exact evening_stocked)

/-- The rows then show amounts that are not zero: those of the saturated zone of the first unit. -/
example : ∃ f, f ∈ evening.2.2.2 ∧ f.r.sat.fin * at_ evening.2.1 (f.key true 8) ≠ 0 ∧ f.r.sat.out ≠ 0 ∧ 0 < f.prefMax ∧
    f.r.satpref.sat * at_ evening.2.1 (f.key true 8) ≠ 0 := by
  refine ⟨evening.2.2.2[0]'(by decide +kernel), List.getElem_mem _, ?_⟩
  decide +kernel

/-- Rain is the first record of the step, and it is not empty. -/
example : (evening.2.1.log[0]?.map fun e => decide (recIn (.data 1) [e] ≠ 0)) = some true := by decide +kernel

/-- Units without a path of deep preferential flow. -/
def blocked : Par × Site := (park, ⟨0, 1, 1, 1, 2, 3, true⟩)

def soak : In := { rain with qpref := 0 }

def day0 : List In × StreamIn × List Rat := ([soak, soak], ⟨[5080, 0], [0, 1 / 1000]⟩, [1 / 1000, 1 / 1000])

theorem day0_fits : Fits [blocked, blocked] day0 := by
  refine ⟨rfl, rfl, ?_⟩
  intro k p i' hp hi'
  rcases k with _ | _ | k
  · cases hp; cases hi'; rfl
  · cases hp; cases hi'; rfl
  · exact absurd hp (by simp)

theorem wet_blocked : Sized [blocked, blocked] 2 wet := by
  refine ⟨rfl, ?_, rfl⟩
  intro k p w hp hw
  rcases k with _ | _ | k
  · cases hp; cases hw; rfl
  · cases hp; cases hw; rfl
  · exact absurd hp (by simp)

def dusk : Reservoir.St × St × Reservoir.Out × List Flow :=
  (couple calm true creek [blocked, blocked] wet begun day0).get (by decide +kernel)

theorem dusk_eq : couple calm true creek [blocked, blocked] wet begun day0 = some dusk := (Option.some_get _).symm

theorem soak_ok : soak.Ok park := by
  refine ⟨rfl, by decide +kernel, Or.inr (by decide +kernel), by decide +kernel, by decide +kernel, by decide +kernel, by decide +kernel,
    by decide +kernel⟩

theorem dusk_smooth : Smooth dusk := by
  refine couple_smooth wet_blocked day0_fits dusk_eq (fun p hp => ?_) ?_ (by decide +kernel) (by decide +kernel)
  · simp only [List.mem_cons, List.not_mem_nil, or_false, or_self] at hp
    subst hp; exact park_ok
  · intro k p w i hp hw hi
    rcases k with _ | _ | k
    · cases hp; cases hw; cases hi; exact ⟨soak_ok, by decide +kernel, by decide +kernel, by decide +kernel⟩
    · cases hp; cases hw; cases hi; exact ⟨soak_ok, by decide +kernel, by decide +kernel, by decide +kernel⟩
    · exact absurd hp (by simp)

/-- `C118_path_violated` applies to water with solute in it. -/
example : (∃ t, enterAll sizes 1 plain true (fun _ _ => 0) dusk.2.1.log = some t ∧ ∀ f ∈ dusk.2.2.2, ¬ 0 < f.prefMax →
      t (.res (place sizes (f.key false 9))) (.vol 5) = f.r.satpref.fin ∧ t (.res (place sizes (f.key false 9))) (.mol 1 5) = 0) ∧
    dusk.2.2.2.length = 2 ∧ ∀ f ∈ dusk.2.2.2, ¬ 0 < f.prefMax ∧ f.r.satpref.fin * at_ dusk.2.1 (f.key true 9) ≠ 0 :=
  ⟨C118_path_violated calm calm_inert.1 true creek [blocked, blocked] 2 creek_ok wet begun day0 wet_blocked day0_fits begun_full
    dusk.1 dusk.2.1 dusk.2.2.1 dusk.2.2.2 dusk_eq dusk_smooth sizes
    (by
      refine ⟨⟨by decide, by decide, by decide, by decide⟩, by decide, by decide, ?_, by decide, ?_, ?_⟩ <;>
        (intro p hp; simp only [List.mem_cons, List.not_mem_nil, or_false, or_self] at hp; subst hp; decide))
    1 plain (fun i => ⟨by simp [Chem.isSolute, plain], rfl⟩) _ (fun _ _ _ => rfl), by decide +kernel, by decide +kernel⟩

end Verif.Transport
