import Verif.Lemmas.TransportMru3
import Verif.Lemmas.TransportRiver4
/-
The composite of the basin, and those of the units.
-/
namespace Verif.Transport
open Verif.Reservoir (Vol Rows BinOut Par In sumOf)
open Verif.Chem (Ctx Call Event Table Same)
open Verif.SolnNum (Dims)

/-- A record of a unit of a list. -/
def Ev.home (us : List Nat) : Ev → Prop
  | .call row _ _ _ _ _ _ _ => ∀ u, row.unit? = some u → u ∈ us
  | .enter u _ _ => u ∈ us
  | .leave u _ _ => u ∈ us
  | _ => True

theorem sum_delta {us : List Nat} (hn : us.Nodup) {u : Nat} (hu : u ∈ us) (x : Rat) : (us.map fun v => if v = u then x else 0).sum = x := by
  induction us with
  | nil => exact absurd hu (by simp)
  | cons v us ih =>
    rw [List.nodup_cons] at hn
    rw [List.map_cons, List.sum_cons]
    rcases List.mem_cons.1 hu with rfl | hu
    · have : (us.map fun v => if v = u then x else 0).sum = 0 := by
        rw [List.map_congr_left (g := fun _ => 0)]
        · simp
        · intro k hk
          rw [if_neg]
          rintro rfl
          exact hn.1 hk
      rw [this]; simp
    · have : v ≠ u := by rintro rfl; exact hn.1 hu
      rw [if_neg this, ih hn.2 hu, zero_add]

theorem sum_nought (us : List Nat) (g : Nat → Rat) (h : ∀ u ∈ us, g u = 0) : (us.map g).sum = 0 := by
  rw [List.map_congr_left (g := fun _ => 0) h]; simp

theorem event_units {us : List Nat} (hn : us.Nodup) {e : Ev} (hh : e.home us) (hb : e.bound) (g : Key × Rat × Rat → Rat) :
    (us.map fun u => e.crossIn u + e.enters u).sum = e.basIn - e.rise ∧
    (us.map fun u => e.crossOut u + e.leaves u).sum = e.basOut - e.seep ∧
    (us.map fun u => ((e.made u).map g).sum).sum = (e.brew.map g).sum := by
  cases e with
  | call row metric vol conc tal mru basin react =>
    cases hu : row.unit? with
    | none =>
      have hm : mru = false := by
        cases mru with
        | false => rfl
        | true => obtain ⟨u, h⟩ := hb rfl; rw [hu] at h; exact absurd h (by simp)
      subst hm
      refine ⟨?_, ?_, ?_⟩
      · rw [sum_nought _ _ fun u _ => by simp [Ev.crossIn, Ev.enters]]; simp [Ev.basIn, Ev.rise]
      · rw [sum_nought _ _ fun u _ => by simp [Ev.crossOut, Ev.leaves]]; simp [Ev.basOut, Ev.seep]
      · rw [sum_nought _ _ fun u _ => by cases react <;> simp [Ev.made, hu]]; cases react <;> simp [Ev.brew, hu]
    | some v =>
      have hv := hh v hu
      refine ⟨?_, ?_, ?_⟩
      · rw [List.map_congr_left (g := fun u => if u = v then (if mru = true ∧ (metric = 0 ∨ metric = 2) then vol * conc else 0) else 0),
          sum_delta hn hv]
        · simp [Ev.basIn, Ev.rise]
        · intro u _
          by_cases h : u = v
          · subst h; simp [Ev.crossIn, Ev.enters, hu]
          · simp [Ev.crossIn, Ev.enters, hu, h, Ne.symm h]
      · rw [List.map_congr_left (g := fun u => if u = v then (if mru = true ∧ metric = 3 then vol * conc else 0) else 0),
          sum_delta hn hv]
        · simp [Ev.basOut, Ev.seep]
        · intro u _
          by_cases h : u = v
          · subst h; simp [Ev.crossOut, Ev.leaves, hu]
          · simp [Ev.crossOut, Ev.leaves, hu, h, Ne.symm h]
      · cases react with
        | false => rw [sum_nought _ _ fun u _ => by simp [Ev.made]]; simp [Ev.brew]
        | true =>
          rw [List.map_congr_left (g := fun u => if u = v then g (row, conc, tal) else 0), sum_delta hn hv]
          · simp [Ev.brew, hu]
          · intro u _
            by_cases h : u = v
            · subst h; simp [Ev.made, hu]
            · simp [Ev.made, hu, h, Ne.symm h]
  | set row init et fin =>
    refine ⟨?_, ?_, ?_⟩ <;> rw [sum_nought _ _ fun u _ => by simp [Ev.crossIn, Ev.enters, Ev.crossOut, Ev.leaves, Ev.made]] <;>
      simp [Ev.basIn, Ev.rise, Ev.basOut, Ev.seep, Ev.brew]
  | final row fin =>
    refine ⟨?_, ?_, ?_⟩ <;> rw [sum_nought _ _ fun u _ => by simp [Ev.crossIn, Ev.enters, Ev.crossOut, Ev.leaves, Ev.made]] <;>
      simp [Ev.basIn, Ev.rise, Ev.basOut, Ev.seep, Ev.brew]
  | enter v vol conc =>
    refine ⟨?_, ?_, ?_⟩
    · rw [List.map_congr_left (g := fun u => if u = v then vol * conc else 0), sum_delta hn hh]
      · simp [Ev.basIn, Ev.rise]
      · intro u _; simp [Ev.crossIn, Ev.enters]
    · rw [sum_nought _ _ fun u _ => by simp [Ev.crossOut, Ev.leaves]]; simp [Ev.basOut, Ev.seep]
    · rw [sum_nought _ _ fun u _ => by simp [Ev.made]]; simp [Ev.brew]
  | leave v vol conc =>
    refine ⟨?_, ?_, ?_⟩
    · rw [sum_nought _ _ fun u _ => by simp [Ev.crossIn, Ev.enters]]; simp [Ev.basIn, Ev.rise]
    · rw [List.map_congr_left (g := fun u => if u = v then vol * conc else 0), sum_delta hn hh]
      · simp [Ev.basOut, Ev.seep]
      · intro u _; simp [Ev.crossOut, Ev.leaves]
    · rw [sum_nought _ _ fun u _ => by simp [Ev.made]]; simp [Ev.brew]

/-- The composite of the basin less those of the units. -/
def apart (us : List Nat) (n : Nat) (t : Table) (s : Nat) : Rat := t .basin (.mol n s) - (us.map fun u => t (.mru u) (.mol n s)).sum

theorem sum_map_gain (us : List Nat) (a b c : Nat → Rat) (h : ∀ u, a u = b u + c u) : (us.map a).sum = (us.map b).sum + (us.map c).sum := by
  rw [← List.sum_map_add]
  congr 1
  exact List.map_congr_left fun u _ => h u

theorem sum_map_times (us : List Nat) (a : Nat → Rat) (x : Rat) : (us.map fun u => x * a u).sum = x * (us.map a).sum := by
  induction us with
  | nil => simp
  | cons u us ih => simp only [List.map_cons, List.sum_cons, ih]; ring

theorem event_apart {d : Dims} {us : List Nat} (hn : us.Nodup) {n : Nat} {e : Ev} (hh : e.home us) (hb : e.bound) {t t' : Table}
    (h1 : BStep d n e t t') (h2 : ∀ u, MStep d n u e t t') :
    apart us n t' 2 = apart us n t 2 + 1000 * e.rise ∧ apart us n t' 3 = apart us n t 3 + 1000 * e.seep ∧
    apart us n t' 4 = apart us n t 4 + 1000 * e.segRxn ∧ apart us n t' 5 = apart us n t 5 + 1000 * e.segFin := by
  obtain ⟨s1, s2, -⟩ := event_units hn hh hb fun _ => 0
  unfold apart
  refine ⟨?_, ?_, ?_, ?_⟩
  · rw [h1.inp, sum_map_gain us _ _ _ fun u => (h2 u).inp, sum_map_times, s1]; ring
  · rw [h1.out, sum_map_gain us _ _ _ fun u => (h2 u).out, sum_map_times, s2]; ring
  · rw [h1.rxn, sum_map_gain us _ _ _ fun u => (h2 u).rxn, (event_units hn hh hb _).2.2]; ring
  · rw [h1.fin, sum_map_gain us _ _ _ fun u => (h2 u).fin, (event_units hn hh hb _).2.2]; ring

theorem heard_apart {d : Dims} (ok : d.Ok) {n : Nat} {z : Nat → Ctx × Call} (hz : ∀ i, Known n (z i).1) {us : List Nat} (hn : us.Nodup)
    (l : List Ev) (hl : ∀ e ∈ l, e.sound d) (hb : ∀ e ∈ l, e.bound) (hh : ∀ e ∈ l, e.home us) (i : Nat) (t t' : Table)
    (h : Chem.run (heard d n z i l) t = some t') :
    t' .basin (.mol n 1) = t .basin (.mol n 1) ∧
    apart us n t' 2 = apart us n t 2 + 1000 * recRise l ∧ apart us n t' 3 = apart us n t 3 + 1000 * recSeep l ∧
    apart us n t' 4 = apart us n t 4 + 1000 * recSegRxn l ∧ apart us n t' 5 = apart us n t 5 + 1000 * recSegFin l := by
  induction l generalizing i t with
  | nil =>
    simp only [heard, Chem.run, Option.some.injEq] at h
    subst h
    simp [recRise, recSeep, recSegRxn, recSegFin]
  | cons e l ih =>
    simp only [heard, run_append] at h
    have he := hl e List.mem_cons_self
    obtain ⟨w, h1, h2⟩ := told_bstep ok (hz i) he t
    have h3 : ∀ u, MStep d n u e t w := by
      intro u
      obtain ⟨w', a, b⟩ := told_mstep (u := u) ok (sited_known (hz i) e) he (hb e List.mem_cons_self) t
      rw [h1] at a
      cases Option.some.inj a
      exact b
    rw [h1, Option.bind_some] at h
    obtain ⟨i1, i2, i3, i4, i5⟩ := ih (fun e he => hl e (List.mem_cons_of_mem _ he)) (fun e he => hb e (List.mem_cons_of_mem _ he))
      (fun e he => hh e (List.mem_cons_of_mem _ he)) (i + 1) w h
    obtain ⟨j2, j3, j4, j5⟩ := event_apart hn (hh e List.mem_cons_self) (hb e List.mem_cons_self) h2 h3
    simp only [recRise, recSeep, recSegRxn, recSegFin, List.map_cons, List.sum_cons] at *
    refine ⟨i1.trans h2.init, ?_, ?_, ?_, ?_⟩
    · rw [i2, j2]; ring
    · rw [i3, j3]; ring
    · rw [i4, j4]; ring
    · rw [i5, j5]; ring

theorem proper_home {f : Flow} {e : Ev} (he : e.proper f) {us : List Nat} (hu : f.unit ∈ us) : e.home us := by
  cases e with
  | call row metric _ _ _ mru _ react => intro u h; rw [he.1.unit h]; exact hu
  | enter v _ _ => rw [show v = f.unit from he]; exact hu
  | leave v _ _ => rw [show v = f.unit from he]; exact hu
  | _ => trivial

theorem streamy_home {N : Nat} {e : Ev} (he : e.streamy N) (us : List Nat) : e.home us := by
  cases e with
  | call row metric _ _ _ mru _ react =>
    obtain ⟨j, -, rfl, -⟩ := he
    intro u h
    simp [Key.unit?] at h
  | final row _ => trivial
  | _ => exact absurd he (by simp [Ev.streamy])

end Verif.Transport
