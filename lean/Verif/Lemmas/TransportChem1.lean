import Verif.Lemmas.TransportTidy
import Verif.Lemmas.Chem
import Verif.Lemmas.SolnNum
import Verif.Spec.TransportChem
/-
Rows and records.
-/
namespace Verif.Chem

/-- A row that is left alone. -/
def Same (r : Int) (t0 t : Table) : Prop := ∀ f, t (.res r) f = t0 (.res r) f

theorem Same.add {r : Int} {t0 t : Table} (h : Same r t0 t) (a : Acc) (ha : a ≠ .res r) (f : Fld) (v : Rat) : Same r t0 (add t a f v) := by
  intro g
  have : ¬ Acc.res r = a := fun e => ha e.symm
  simp only [Chem.add, this, false_and, if_false]
  exact h g

theorem Same.put {r : Int} {t0 t : Table} (h : Same r t0 t) (a : Acc) (ha : a ≠ .res r) (f : Fld) (v : Rat) : Same r t0 (put t a f v) := by
  intro g
  have : ¬ Acc.res r = a := fun e => ha e.symm
  simp only [Chem.put, this, false_and, if_false]
  exact h g

theorem Same.addAll {r : Int} {t0 t : Table} (h : Same r t0 t) (as : List Acc) (ha : ∀ a ∈ as, a ≠ .res r) (f : Fld) (v : Rat) :
    Same r t0 (addAll as f v t) := by
  unfold Chem.addAll
  induction as generalizing t with
  | nil => exact h
  | cons a as ih => exact ih (h.add a (ha a List.mem_cons_self) f v) fun b hb => ha b (List.mem_cons_of_mem _ hb)

theorem Same.foldl {κ : Type} {r : Int} {t0 : Table} {S : Table → κ → Table} (hS : ∀ t k, Same r t0 t → Same r t0 (S t k)) (l : List κ)
    {t : Table} (h : Same r t0 t) : Same r t0 (l.foldl S t) := by
  induction l generalizing t with
  | nil => exact h
  | cons k l ih => exact ih (hS t k h)

theorem no_res_uz (x : Ctx) (c : Call) (r : Int) : ∀ a ∈ uzAccs x c, a ≠ .res r := by
  unfold uzAccs
  intro a
  split_ifs <;> simp <;> rintro (rfl | rfl) <;> simp

theorem no_res_vol (x : Ctx) (c : Call) (r : Int) : ∀ a ∈ volAccs x c, a ≠ .res r := by
  intro a ha
  unfold volAccs at ha
  simp only [List.mem_append] at ha
  rcases ha with ((ha | ha) | ha) | ha
  · split_ifs at ha <;> simp_all
  · split_ifs at ha <;> simp_all
  · exact no_res_uz x c r a ha
  · split_ifs at ha <;> simp_all

theorem no_res_rxn (x : Ctx) (c : Call) (r : Int) : ∀ a ∈ rxnAccs x c, a ≠ .res r := by
  intro a ha
  unfold rxnAccs at ha
  simp only [List.mem_append] at ha
  rcases ha with ha | ha
  · split_ifs at ha
    · rcases List.mem_cons.1 ha with rfl | ha
      · simp
      · exact no_res_uz x c r a ha
    · simp at ha
  · split_ifs at ha <;> simp_all

theorem no_res_basin (x : Ctx) (c : Call) (r : Int) : ∀ a ∈ Acc.basin :: rxnAccs x c, a ≠ .res r := by
  intro a ha
  rcases List.mem_cons.1 ha with rfl | ha
  · simp
  · exact no_res_rxn x c r a ha

theorem no_res_hill (x : Ctx) (c : Call) (r : Int) : ∀ a ∈ hillAccs x c, a ≠ .res r := by
  intro a ha
  unfold hillAccs at ha
  rcases List.mem_cons.1 ha with rfl | ha
  · simp
  · rcases List.mem_cons.1 ha with rfl | ha
    · simp
    · exact no_res_uz x c r a ha

theorem no_res_delta (x : Ctx) (c : Call) (r : Int) :
    ∀ a ∈ Acc.basin :: ((if c.stream then [.hyd] else []) ++ (if c.mru then .mru x.is :: uzAccs x c else [])), a ≠ .res r := by
  intro a ha
  rcases List.mem_cons.1 ha with rfl | ha
  · simp
  rcases List.mem_append.1 ha with ha | ha
  · split_ifs at ha <;> simp_all
  · split_ifs at ha
    · rcases List.mem_cons.1 ha with rfl | ha
      · simp
      · exact no_res_uz x c r a ha
    · simp at ha

section
variable {r : Int} {t0 t : Table}

theorem res_ne {a b : Int} (h : b ≠ a) : Acc.res a ≠ Acc.res b := by simp [Ne.symm h]

theorem Same.ownMol (h : Same r t0 t) (c : Call) (h1 : r ≠ c.row) (h2 : r ≠ c.row - 1) (im : Nat) (vol : Rat) (n : Nat) :
    Same r t0 (ownMol c im vol n t).1 := by
  unfold Chem.ownMol
  dsimp only
  split_ifs <;> dsimp only <;>
    first
      | exact h.add _ (res_ne h1) _ _
      | exact h.put _ (res_ne h1) _ _
      | exact ((h.add _ (res_ne h1) _ _).put _ (res_ne h2) _ _).put _ (res_ne h2) _ _

theorem Same.ownDelta (h : Same r t0 t) (c : Call) (h1 : r ≠ c.row) (h2 : r ≠ c.row - 1) (im : Nat) (vol : Rat) (n : Nat) :
    Same r t0 (ownDelta c im vol n t) := by
  unfold Chem.ownDelta
  dsimp only
  split_ifs
  · exact ((h.add _ (res_ne h1) _ _).put _ (res_ne h2) _ _).put _ (res_ne h2) _ _
  · exact h.add _ (res_ne h1) _ _

theorem Same.solute (h : Same r t0 t) (x : Ctx) (c : Call) (h1 : r ≠ c.row) (h2 : r ≠ c.row - 1) (im : Nat) (vol : Rat) (n : Nat) :
    Same r t0 (solute x c im vol t n) := by
  unfold Chem.solute
  dsimp only
  rw [molAccs_eq]
  have k1 := h.ownMol c h1 h2 im vol n
  split_ifs
  · exact ((k1.ownDelta c h1 h2 im vol n).addAll _ (no_res_vol x c r) _ _).addAll _ (no_res_vol x c r) _ _
  · exact k1.addAll _ (no_res_vol x c r) _ _

theorem Same.rxnVol (h : Same r t0 t) (x : Ctx) (c : Call) (im : Nat) (vol : Rat) : Same r t0 (rxnVol x c im vol t).1 := by
  have hb : ∀ a ∈ [Acc.basin], a ≠ .res r := by simp
  have hb' : (Acc.basin) ≠ .res r := by simp
  have hy : (Acc.hyd) ≠ .res r := by simp
  have ht : ∀ a ∈ (hillAccs x c).tail, a ≠ .res r := fun a ha => no_res_hill x c r a (List.mem_of_mem_tail ha)
  unfold Chem.rxnVol
  dsimp only
  split_ifs
  · exact (((((((h.add _ hb' _ _).addAll _ hb _ _).addAll _ hb _ _).addAll _ hb _ _).put _ hy _ _).add _ hy _ _).add _ hy _ _)
  · exact h.add _ hb' _ _
  · exact (((((h.add _ hb' _ _).addAll _ (no_res_hill x c r) _ _).addAll _ ht _ _).addAll _ (no_res_hill x c r) _ _).addAll
      _ (no_res_hill x c r) _ _)

theorem Same.reaction (h : Same r t0 t) (x : Ctx) (c : Call) (h1 : r ≠ c.row) (vol : Rat) (n : Nat) : Same r t0 (reaction x c vol t n) := by
  unfold Chem.reaction
  dsimp only
  have hb' : (Acc.basin) ≠ .res r := by simp
  refine Same.addAll (Same.put ?_ _ (res_ne h1) _ _) _ (no_res_basin x c r) _ _
  have key : ∀ {t : Table} (d : Rat), Same r t0 t →
      Same r t0 (Chem.addAll (rxnAccs x c) (.mol n 5) (c.tal n * vol * 1000) (Chem.addAll (rxnAccs x c) (.mol n 4) d
        (if x.ih ≠ 1 then Chem.add (Chem.add t .basin (.mol n 4) d) .basin (.mol n 5) (c.tal n * vol * 1000)
         else Chem.add t .basin (.mol n 4) d))) := by
    intro t d h
    refine (Same.addAll ?_ _ (no_res_rxn x c r) _ _).addAll _ (no_res_rxn x c r) _ _
    split_ifs
    · exact (h.add _ hb' _ _).add _ hb' _ _
    · exact h.add _ hb' _ _
  cases hi : x.iso n with
  | true =>
    simp only [if_true]
    exact key _ (((h.put _ (res_ne h1) _ _).put _ (res_ne h1) _ _).addAll _ (no_res_delta x c r) _ _)
  | false =>
    simp only [Bool.false_eq_true, if_false]
    refine Same.foldl (fun t k ht => ?_) _ ?_
    · exact (ht.put _ (res_ne h1) _ _).addAll _ (no_res_basin x c r) _ _
    · exact key _ (((h.put _ (res_ne h1) _ _).put _ (res_ne h1) _ _).put _ (res_ne h1) _ _)

/-- A call touches only its own row, and for streams the one downstream. -/
theorem updateChem_same (x : Ctx) (c : Call) (h1 : r ≠ c.row) (h2 : r ≠ c.row - 1) (hm : c.metric = 0 ∨ c.metric = 2 ∨ c.metric = 3 ∨ c.metric = -1) (t : Table) :
    ∃ t', updateChem x c t = some t' ∧ Same r t t' := by
  have h : Same r t t := fun _ => rfl
  have him : ¬ (c.im < 1 ∨ c.im > 5) := by
    unfold Call.im
    rcases hm with hm | hm | hm | hm <;> simp [hm]
  unfold Chem.updateChem
  rw [if_neg him]
  dsimp only
  generalize c.im.toNat = im
  generalize callVol c im t = vol
  have k1 : Same r t (compVol x c im vol (ownVol c im vol t)) := by
    unfold compVol ownVol
    refine Same.addAll (Same.addAll (Same.addAll ?_ _ (no_res_vol x c r) _ _) _ (no_res_vol x c r) _ _) _ (no_res_vol x c r) _ _
    split_ifs
    · exact ((h.add _ (res_ne h1) _ _).add _ (res_ne h1) _ _).add _ (res_ne h1) _ _
    · exact (h.put _ (res_ne h1) _ _).put _ (res_ne h1) _ _
  have k2 := Same.foldl (S := Chem.solute x c im vol) (fun t k ht => ht.solute x c h1 h2 im vol k) (solutes x) k1
  have k3 : Same r t (if im = 1 then (cols x).foldl (fun t j => Chem.put t (.res c.row) (.mass j) (c.last j))
      ((solutes x).foldl (Chem.solute x c im vol) (compVol x c im vol (ownVol c im vol t)))
      else (solutes x).foldl (Chem.solute x c im vol) (compVol x c im vol (ownVol c im vol t))) := by
    split_ifs
    · exact Same.foldl (fun t k ht => ht.put _ (res_ne h1) _ _) _ k2
    · exact k2
  generalize (if im = 1 then _ else _ : Table) = T at k3
  split
  · refine ⟨_, rfl, ?_⟩
    refine Same.foldl (fun t k ht => (ht.put _ (res_ne h1) _ _).put _ (res_ne h1) _ _) _ ?_
    exact Same.foldl (fun t k ht => ht.reaction x c h1 _ k) _ (k3.rxnVol x c im vol)
  · exact ⟨_, rfl, k3⟩

end

end Verif.Chem
