import Verif.Lemmas.TransportChem5
import Verif.Lemmas.TransportCross
/-
What the records do to the composite of a unit.
-/
namespace Verif.Chem

/-- The composite of a unit is left alone. -/
def Calm (i : Nat) (t0 t : Table) : Prop := ∀ f, t (.mru i) f = t0 (.mru i) f

theorem Calm.add {i : Nat} {t0 t : Table} (h : Calm i t0 t) (a : Acc) (ha : a ≠ .mru i) (f : Fld) (v : Rat) : Calm i t0 (add t a f v) := by
  intro g
  have : ¬ Acc.mru i = a := fun e => ha e.symm
  simp only [Chem.add, this, false_and, if_false]
  exact h g

theorem Calm.put {i : Nat} {t0 t : Table} (h : Calm i t0 t) (a : Acc) (ha : a ≠ .mru i) (f : Fld) (v : Rat) : Calm i t0 (put t a f v) := by
  intro g
  have : ¬ Acc.mru i = a := fun e => ha e.symm
  simp only [Chem.put, this, false_and, if_false]
  exact h g

theorem Calm.addAll {i : Nat} {t0 t : Table} (h : Calm i t0 t) (as : List Acc) (ha : ∀ a ∈ as, a ≠ .mru i) (f : Fld) (v : Rat) :
    Calm i t0 (addAll as f v t) := by
  unfold Chem.addAll
  induction as generalizing t with
  | nil => exact h
  | cons a as ih => exact ih (h.add a (ha a List.mem_cons_self) f v) fun b hb => ha b (List.mem_cons_of_mem _ hb)

theorem Calm.foldl {κ : Type} {i : Nat} {t0 : Table} {S : Table → κ → Table} (hS : ∀ t k, Calm i t0 t → Calm i t0 (S t k)) (l : List κ)
    {t : Table} (h : Calm i t0 t) : Calm i t0 (l.foldl S t) := by
  induction l generalizing t with
  | nil => exact h
  | cons k l ih => exact ih (hS t k h)

theorem res_mru (r : Int) (i : Nat) : Acc.res r ≠ .mru i := by simp

theorem stream_accs {x : Ctx} {c : Call} (hk : c.restype = 99) : uzAccs x c = [] ∧ c.stream = true ∧ c.mru = false := by
  unfold uzAccs Call.unsat Call.stream Call.mru
  simp [hk]

theorem no_mru_vol {x : Ctx} {c : Call} (hk : c.restype = 99) (hb : c.mrubnd = false) (i : Nat) : ∀ a ∈ volAccs x c, a ≠ .mru i := by
  intro a ha
  unfold volAccs at ha
  rw [(stream_accs hk).1, hb] at ha
  simp only [List.mem_append] at ha
  rcases ha with ((ha | ha) | ha) | ha
  · split_ifs at ha <;> simp_all
  · split_ifs at ha <;> simp_all
  · simp at ha
  · split_ifs at ha <;> simp_all

theorem no_mru_rxn {x : Ctx} {c : Call} (hk : c.restype = 99) (i : Nat) : ∀ a ∈ rxnAccs x c, a ≠ .mru i := by
  intro a ha
  unfold rxnAccs at ha
  rw [(stream_accs (x := x) hk).2.1, (stream_accs (x := x) hk).2.2] at ha
  simp at ha
  subst ha
  simp

theorem no_mru_basin {x : Ctx} {c : Call} (hk : c.restype = 99) (i : Nat) : ∀ a ∈ Acc.basin :: rxnAccs x c, a ≠ .mru i := by
  intro a ha
  rcases List.mem_cons.1 ha with rfl | ha
  · simp
  · exact no_mru_rxn hk i a ha

theorem no_mru_delta {x : Ctx} {c : Call} (hk : c.restype = 99) (i : Nat) :
    ∀ a ∈ Acc.basin :: ((if c.stream then [.hyd] else []) ++ (if c.mru then .mru x.is :: uzAccs x c else [])), a ≠ .mru i := by
  intro a ha
  rw [(stream_accs (x := x) hk).2.1, (stream_accs (x := x) hk).2.2] at ha
  simp at ha
  rcases ha with rfl | rfl <;> simp

section
variable {i : Nat} {t0 t : Table}

theorem Calm.ownMol (h : Calm i t0 t) (c : Call) (im : Nat) (vol : Rat) (n : Nat) : Calm i t0 (ownMol c im vol n t).1 := by
  unfold Chem.ownMol
  dsimp only
  split_ifs <;> dsimp only <;>
    first
      | exact h.add _ (res_mru _ _) _ _
      | exact h.put _ (res_mru _ _) _ _
      | exact ((h.add _ (res_mru _ _) _ _).put _ (res_mru _ _) _ _).put _ (res_mru _ _) _ _

theorem Calm.ownDelta (h : Calm i t0 t) (c : Call) (im : Nat) (vol : Rat) (n : Nat) : Calm i t0 (ownDelta c im vol n t) := by
  unfold Chem.ownDelta
  dsimp only
  split_ifs
  · exact ((h.add _ (res_mru _ _) _ _).put _ (res_mru _ _) _ _).put _ (res_mru _ _) _ _
  · exact h.add _ (res_mru _ _) _ _

theorem Calm.solute (h : Calm i t0 t) (x : Ctx) (c : Call) (hk : c.restype = 99) (hb : c.mrubnd = false) (im : Nat) (vol : Rat) (n : Nat) :
    Calm i t0 (solute x c im vol t n) := by
  unfold Chem.solute
  dsimp only
  rw [molAccs_eq]
  have k1 := h.ownMol c im vol n
  split_ifs
  · exact ((k1.ownDelta c im vol n).addAll _ (no_mru_vol hk hb i) _ _).addAll _ (no_mru_vol hk hb i) _ _
  · exact k1.addAll _ (no_mru_vol hk hb i) _ _

theorem Calm.rxnVol (h : Calm i t0 t) (x : Ctx) (c : Call) (hk : c.restype = 99) (im : Nat) (vol : Rat) : Calm i t0 (rxnVol x c im vol t).1 := by
  have hb : ∀ a ∈ [Acc.basin], a ≠ .mru i := by simp
  have hb' : (Acc.basin) ≠ .mru i := by simp
  have hy : (Acc.hyd) ≠ .mru i := by simp
  unfold Chem.rxnVol
  dsimp only
  rw [(stream_accs (x := x) hk).2.1]
  simp only [if_true]
  split_ifs
  · exact (((((((h.add _ hb' _ _).addAll _ hb _ _).addAll _ hb _ _).addAll _ hb _ _).put _ hy _ _).add _ hy _ _).add _ hy _ _)
  · exact h.add _ hb' _ _

theorem Calm.reaction (h : Calm i t0 t) (x : Ctx) (c : Call) (hk : c.restype = 99) (vol : Rat) (n : Nat) : Calm i t0 (reaction x c vol t n) := by
  unfold Chem.reaction
  dsimp only
  have hb' : (Acc.basin) ≠ .mru i := by simp
  refine Calm.addAll (Calm.put ?_ _ (res_mru _ _) _ _) _ (no_mru_basin hk i) _ _
  have key : ∀ {t : Table} (d : Rat), Calm i t0 t →
      Calm i t0 (Chem.addAll (rxnAccs x c) (.mol n 5) (c.tal n * vol * 1000) (Chem.addAll (rxnAccs x c) (.mol n 4) d
        (if x.ih ≠ 1 then Chem.add (Chem.add t .basin (.mol n 4) d) .basin (.mol n 5) (c.tal n * vol * 1000)
         else Chem.add t .basin (.mol n 4) d))) := by
    intro t d h
    refine (Calm.addAll ?_ _ (no_mru_rxn hk i) _ _).addAll _ (no_mru_rxn hk i) _ _
    split_ifs
    · exact (h.add _ hb' _ _).add _ hb' _ _
    · exact h.add _ hb' _ _
  cases hi : x.iso n with
  | true =>
    simp only [if_true]
    exact key _ (((h.put _ (res_mru _ _) _ _).put _ (res_mru _ _) _ _).addAll _ (no_mru_delta hk i) _ _)
  | false =>
    simp only [Bool.false_eq_true, if_false]
    refine Calm.foldl (fun t k ht => ?_) _ ?_
    · exact (ht.put _ (res_mru _ _) _ _).addAll _ (no_mru_basin hk i) _ _
    · exact key _ (((h.put _ (res_mru _ _) _ _).put _ (res_mru _ _) _ _).put _ (res_mru _ _) _ _)

/-- The reaction of a stream segment does not touch the composites of units. -/
theorem updateChem_calm (x : Ctx) (c : Call) (hk : c.restype = 99) (hb : c.mrubnd = false) (hm : c.metric = 3) (t : Table) (i : Nat) :
    ∃ t', updateChem x c t = some t' ∧ Calm i t t' := by
  have h : Calm i t t := fun _ => rfl
  have him : ¬ (c.im < 1 ∨ c.im > 5) := by
    unfold Call.im
    simp [hm]
  unfold Chem.updateChem
  rw [if_neg him]
  dsimp only
  generalize c.im.toNat = im
  generalize callVol c im t = vol
  have k1 : Calm i t (compVol x c im vol (ownVol c im vol t)) := by
    unfold compVol ownVol
    refine Calm.addAll (Calm.addAll (Calm.addAll ?_ _ (no_mru_vol hk hb i) _ _) _ (no_mru_vol hk hb i) _ _) _ (no_mru_vol hk hb i) _ _
    split_ifs
    · exact ((h.add _ (res_mru _ _) _ _).add _ (res_mru _ _) _ _).add _ (res_mru _ _) _ _
    · exact (h.put _ (res_mru _ _) _ _).put _ (res_mru _ _) _ _
  have k2 := Calm.foldl (S := Chem.solute x c im vol) (fun t k ht => ht.solute x c hk hb im vol k) (solutes x) k1
  have k3 : Calm i t (if im = 1 then (cols x).foldl (fun t j => Chem.put t (.res c.row) (.mass j) (c.last j))
      ((solutes x).foldl (Chem.solute x c im vol) (compVol x c im vol (ownVol c im vol t)))
      else (solutes x).foldl (Chem.solute x c im vol) (compVol x c im vol (ownVol c im vol t))) := by
    split_ifs
    · exact Calm.foldl (fun t k ht => ht.put _ (res_mru _ _) _ _) _ k2
    · exact k2
  generalize (if im = 1 then _ else _ : Table) = T at k3
  split
  · refine ⟨_, rfl, ?_⟩
    refine Calm.foldl (fun t k ht => (ht.put _ (res_mru _ _) _ _).put _ (res_mru _ _) _ _) _ ?_
    exact Calm.foldl (fun t k ht => ht.reaction x c hk _ k) _ (k3.rxnVol x c hk im vol)
  · exact ⟨_, rfl, k3⟩

end

end Verif.Chem
