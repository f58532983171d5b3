import Verif.Lemmas.TransportRiver7
import Verif.Props.TransportMru
/-
C120 The composite of the basin shows what happened in it.
-/
namespace Verif.Transport
open Verif.Reservoir (Vol Par In Start Basin BasinOut Chan StreamIn Rows BinOut)
open Verif.Chem (Ctx Call Event Table)
open Verif.SolnNum (Dims)

/-- C120: in a step, what the transport records is entered in the tables without error, and the composite of the basin shows
what entered the basin, left it, and remains, as the composites of its units do.  Missing: flows that the mixing sequence does not
provide for (C114); volumes, temperature, pH and isotopes. -/
theorem C120_step_partial (rx : Ent → Sol → Sol) (hd : Dry rx) (first : Bool) (b : Basin) (ps : List (Par × Site)) (N : Nat)
    (hb : b.Ok N) (v : Reservoir.St) (s : St) (x : List In × StreamIn × List Rat) (hv : Sized ps N v) (hx : Fits ps x)
    (hF : Full s.sol) (v' : Reservoir.St) (s' : St) (o : Reservoir.Out) (fs : List Flow)
    (h : couple rx first b ps v s x = some (v', s', o, fs)) (hs : Smooth (v', s', o, fs)) (d : Dims) (hin : Inside d ps N) (n : Nat)
    (z : Nat → Ctx × Call) (hz : ∀ i, Known n (z i).1) (u : Table) (hu : Blank n (opened first u)) (hu' : BlankUnits n (opened first u))
    (hu'' : BlankBasin n (opened first u)) :
    ∃ t, enterAll d n z first u s'.log = some t ∧ (∀ f ∈ fs, MruShown d n f (begin first fs N s) s' (opened first u) t) ∧
      ∃ c, BasinShown rx n fs o (begin first fs N s) s' c (opened first u) t := by
  obtain ⟨-, t, h1, -, h2, -⟩ := couple_shown hd hb hv hx hF h hs hin hz hu
  exact ⟨t, h1, h2 hu', couple_river hd hb hv hx hF h hs hin hz hu' hu'' h1⟩

/-- C120 for all steps of a run: if the tables start with the amounts that are there, the composite of the basin shows what
happened in each step, and it balances but for the reactions that the composites of the units leave out, and what is entered
too much for diversions and channel losses. -/
theorem C120_run_partial (rx : Ent → Sol → Sol) (hd : Dry rx) (b : Basin) (ps : List (Par × Site)) (N : Nat) (hb : b.Ok N)
    (d : Dims) (hin : Inside d ps N) (n : Nat) (xs : List (List In × StreamIn × List Rat)) (hx : ∀ x ∈ xs, Fits ps x) (v : Reservoir.St)
    (s : St) (hv : Sized ps N v) (hF : Full s.sol) (rs : List (Reservoir.St × St × Reservoir.Out × List Flow))
    (h : run rx b ps true v s xs = some rs) (hs : ∀ r ∈ rs, Smooth r) (zs : List (Nat → Ctx × Call)) (hzl : zs.length = rs.length)
    (hz : ∀ z ∈ zs, ∀ i, Known n (z i).1) (u : Table) (hu : Blank n u) (hu' : BlankUnits n u) (hu'' : BlankBasin n u)
    (hst : ∀ r, rs[0]? = some r →
      (∀ f ∈ r.2.2.2, Stocked d n f s u ∧ u (.mru f.unit) (.mol n 1) = 1000 * known f (·.init) false s) ∧
      u .basin (.mol n 1) = 1000 * ((r.2.2.2.map fun f => known f (·.init) false s).sum + inStream false 1 v.stream s)) :
    ∃ ts, tables d n true u (zs.zip (rs.map fun r => r.2.1.log)) = some ts ∧ BasinAllShown rx d n N true v.stream s u rs ts := by
  obtain ⟨ts, h1, h2, -⟩ := run_river hd hb hin xs hx true v s hv hF rs h hs zs hzl hz u hu hu' hu'' fun r hr => by
    obtain ⟨e, e'⟩ := hst r hr
    refine ⟨fun f hf => ?_, ?_⟩
    · obtain ⟨e, e'⟩ := e f hf
      exact ⟨⟨e.can, e.snow, e.ohoriz, e.uz, e.qdf, e.sat, e.satpref⟩, e'⟩
    · show u .basin (.mol n 1) = byUnits n r.2.2.2 u 1 + 1000 * inStream false 1 v.stream (begin true r.2.2.2 N s)
      rw [inStream_congr false false v.stream (begin true r.2.2.2 N s) s 1 fun _ _ _ => rfl]
      rw [e', byUnits, List.map_congr_left fun f hf => (e f hf).2]
      have : ∀ l : List Flow, (l.map fun f => 1000 * known f (·.init) false s).sum = 1000 * (l.map fun f => known f (·.init) false s).sum := by
        intro l
        induction l with
        | nil => simp
        | cons f l ih => simp only [List.map_cons, List.sum_cons, ih]; ring
      rw [this]; ring
  exact ⟨ts, h1, h2⟩

/-- C120 for solutes that do not react: in each step the composite of the basin shows no reactions, and it balances but for
diversions and channel losses; without those, it balances. -/
theorem C120_even_partial (rx : Ent → Sol → Sol) (hi : Inert rx) (b : Basin) (ps : List (Par × Site)) (N : Nat) (hb : b.Ok N)
    (d : Dims) (hin : Inside d ps N) (n : Nat) (xs : List (List In × StreamIn × List Rat)) (hx : ∀ x ∈ xs, Fits ps x) (v : Reservoir.St)
    (s : St) (hv : Sized ps N v) (hF : Full s.sol) (rs : List (Reservoir.St × St × Reservoir.Out × List Flow))
    (h : run rx b ps true v s xs = some rs) (hs : ∀ r ∈ rs, Smooth r) (zs : List (Nat → Ctx × Call)) (hzl : zs.length = rs.length)
    (hz : ∀ z ∈ zs, ∀ i, Known n (z i).1) (u : Table) (hu : Blank n u) (hu' : BlankUnits n u) (hu'' : BlankBasin n u)
    (hst : ∀ r, rs[0]? = some r →
      (∀ f ∈ r.2.2.2, Stocked d n f s u ∧ u (.mru f.unit) (.mol n 1) = 1000 * known f (·.init) false s) ∧
      u .basin (.mol n 1) = 1000 * ((r.2.2.2.map fun f => known f (·.init) false s).sum + inStream false 1 v.stream s)) :
    ∃ ts, tables d n true u (zs.zip (rs.map fun r => r.2.1.log)) = some ts ∧ BasinAllEven n N true s rs ts := by
  obtain ⟨ts, h1, -, h2⟩ := run_river hi.1 hb hin xs hx true v s hv hF rs h hs zs hzl hz u hu hu' hu'' fun r hr => by
    obtain ⟨e, e'⟩ := hst r hr
    refine ⟨fun f hf => ?_, ?_⟩
    · obtain ⟨e, e'⟩ := e f hf
      exact ⟨⟨e.can, e.snow, e.ohoriz, e.uz, e.qdf, e.sat, e.satpref⟩, e'⟩
    · show u .basin (.mol n 1) = byUnits n r.2.2.2 u 1 + 1000 * inStream false 1 v.stream (begin true r.2.2.2 N s)
      rw [inStream_congr false false v.stream (begin true r.2.2.2 N s) s 1 fun _ _ _ => rfl]
      rw [e', byUnits, List.map_congr_left fun f hf => (e f hf).2]
      have : ∀ l : List Flow, (l.map fun f => 1000 * known f (·.init) false s).sum = 1000 * (l.map fun f => known f (·.init) false s).sum := by
        intro l
        induction l with
        | nil => simp
        | cons f l ih => simp only [List.map_cons, List.sum_cons, ih]; ring
      rw [this]; ring
  exact ⟨ts, h1, h2 hi⟩

/-! ### The basin of two units -/

/-- The tables at the start, with composites of units and basin. -/
def store (d : Dims) (fs : List Flow) (w : List Rat) (s : St) : Table := fun a g =>
  match a, g with
  | .basin, .mol 1 1 => 1000 * ((fs.map fun f => known f (·.init) false s).sum + inStream false 1 w s)
  | a, g => stocks d fs s a g

theorem store_blank (d : Dims) (fs : List Flow) (w : List Rat) (s : St) :
    Blank 1 (store d fs w s) ∧ BlankUnits 1 (store d fs w s) ∧ BlankBasin 1 (store d fs w s) := by
  refine ⟨?_, ?_, ?_⟩
  · rintro r s (rfl | rfl | rfl | rfl) <;> rfl
  · rintro r s (rfl | rfl | rfl | rfl) <;> rfl
  · rintro s (rfl | rfl | rfl | rfl) <;> rfl

theorem evening_store : (∀ f ∈ evening.2.2.2, Stocked sizes 1 f begun (store sizes evening.2.2.2 wet.stream begun) ∧
      store sizes evening.2.2.2 wet.stream begun (.mru f.unit) (.mol 1 1) = 1000 * known f (·.init) false begun) ∧
    store sizes evening.2.2.2 wet.stream begun .basin (.mol 1 1) =
      1000 * ((evening.2.2.2.map fun f => known f (·.init) false begun).sum + inStream false 1 wet.stream begun) := by
  refine ⟨fun f hf => ?_, rfl⟩
  obtain ⟨e, e'⟩ := evening_stocks f hf
  exact ⟨⟨e.can, e.snow, e.ohoriz, e.uz, e.qdf, e.sat, e.satpref⟩, e'⟩

/-- C120 applies to a run of two days. -/
theorem two_days_basin : ∃ ts, tables sizes 1 true (store sizes evening.2.2.2 wet.stream begun)
      ([plain, plain].zip [evening.2.1.log, night.2.1.log]) = some ts ∧
    BasinAllShown calm sizes 1 2 true wet.stream begun (store sizes evening.2.2.2 wet.stream begun) [evening, night] ts :=
  C120_run_partial calm calm_inert.1 creek [plot, plot] 2 creek_ok sizes sizes_inside 1 [day1, day2] two_days_fit
    wet begun wet_sized begun_full [evening, night] two_days two_days_smooth [plain, plain] rfl plain_known
    _ (store_blank _ _ _ _).1 (store_blank _ _ _ _).2.1 (store_blank _ _ _ _).2.2 (fun r hr => by cases hr; exact evening_store)

theorem two_days_basin_even : ∃ ts, tables sizes 1 true (store sizes evening.2.2.2 wet.stream begun)
      ([plain, plain].zip [evening.2.1.log, night.2.1.log]) = some ts ∧ BasinAllEven 1 2 true begun [evening, night] ts :=
  C120_even_partial calm calm_inert creek [plot, plot] 2 creek_ok sizes sizes_inside 1 [day1, day2] two_days_fit
    wet begun wet_sized begun_full [evening, night] two_days two_days_smooth [plain, plain] rfl plain_known
    _ (store_blank _ _ _ _).1 (store_blank _ _ _ _).2.1 (store_blank _ _ _ _).2.2 (fun r hr => by cases hr; exact evening_store)

/-- On the second day, nothing is taken from the streams, and the composite balances; solute leaves at the outlet. -/
example : Untapped night ∧ night.2.2.1.basin.discharge * at_ night.2.1 (.seg true 0) ≠ 0 ∧
    inStream true 1 night.2.2.1.basin.stream night.2.1 ≠ 0 := by
  refine ⟨⟨?_, ?_⟩, ?_, ?_⟩
  · decide +kernel
  · decide +kernel
  · decide +kernel
  · decide +kernel

/-! ### Where the composite does not balance -/

/-- C120 fails where water is diverted from streams, or lost from channels: even for solutes that do not react, and with the
right initial amounts, what the composite of the basin shows as output is too much by `doubled`. -/
theorem C120_taken_violated (rx : Ent → Sol → Sol) (hi : Inert rx) (b : Basin) (ps : List (Par × Site)) (N : Nat) (hb : b.Ok N)
    (d : Dims) (hin : Inside d ps N) (n : Nat) (x : List In × StreamIn × List Rat) (hx : Fits ps x) (v : Reservoir.St)
    (s : St) (hv : Sized ps N v) (hF : Full s.sol) (v' : Reservoir.St) (s' : St) (o : Reservoir.Out) (fs : List Flow)
    (h : couple rx true b ps v s x = some (v', s', o, fs)) (hs : Smooth (v', s', o, fs)) (z : Nat → Ctx × Call)
    (hz : ∀ i, Known n (z i).1) (u : Table) (hu : Blank n u) (hu' : BlankUnits n u) (hu'' : BlankBasin n u)
    (hst : ∀ f ∈ fs, Stocked d n f s u ∧ u (.mru f.unit) (.mol n 1) = 1000 * known f (·.init) false s)
    (hb0 : u .basin (.mol n 1) = 1000 * ((fs.map fun f => known f (·.init) false s).sum + inStream false 1 v.stream s))
    (hw : doubled fs o s ≠ 0) : ∃ t, enterAll d n z true u s'.log = some t ∧ ¬ BasinEven n t := by
  obtain ⟨ts, h1, h2⟩ := C120_even_partial rx hi b ps N hb d hin n [x] (by simpa using hx) v s hv hF [(v', s', o, fs)]
    (by simp [run, h]) (by simpa using hs) [z] rfl (by simpa using hz) u hu hu' hu'' (fun r hr => by cases hr; exact ⟨hst, hb0⟩)
  cases ts with
  | nil => exact absurd h2 (by simp [BasinAllEven])
  | cons t ts =>
    obtain ⟨-, q, -⟩ := h2
    simp only [List.map_cons, List.map_nil, List.zip_cons_cons, List.zip_nil_right, tables] at h1
    cases he : enterAll d n z true u s'.log with
    | none => rw [he] at h1; exact absurd h1 (by simp)
    | some t' =>
      rw [he] at h1
      simp only [Option.map_some, Option.some.injEq, List.cons.injEq] at h1
      obtain ⟨rfl, -⟩ := h1
      refine ⟨t', rfl, fun e => hw ?_⟩
      unfold BasinEven at e
      have : doubled fs o (begin true fs N s) = doubled fs o s := rfl
      rw [this] at q
      linarith

/-- It applies to the first of the two days: water is diverted, and lost from a channel. -/
example : (∃ t, enterAll sizes 1 plain true (store sizes evening.2.2.2 wet.stream begun) evening.2.1.log = some t ∧ ¬ BasinEven 1 t) ∧
    diverted evening.2.2.2 begun ≠ 0 ∧ doubled evening.2.2.2 evening.2.2.1 begun ≠ diverted evening.2.2.2 begun :=
  ⟨C120_taken_violated calm calm_inert creek [plot, plot] 2 creek_ok sizes sizes_inside 1 day1 (two_days_fit day1 (by simp))
    wet begun wet_sized begun_full evening.1 evening.2.1 evening.2.2.1 evening.2.2.2 evening_eq evening_smooth plain
    (plain_known plain (by simp)) _ (store_blank _ _ _ _).1 (store_blank _ _ _ _).2.1 (store_blank _ _ _ _).2.2 evening_store.1
    evening_store.2 (by decide +kernel), by decide +kernel, by decide +kernel⟩

end Verif.Transport
