import Verif.Lemmas.NameDouble
/-
Lemmas about mixing solutions.
-/
namespace Verif.Nd

theorem mixSolutions_eq (store : Int → Option Soln) (mix : List (Int × Rat)) (s : Soln) (n : Nat) :
    mix.foldl (fun acc c =>
      match store c.1 with
      | none => (acc.1, acc.2 + 1)
      | some a => (Soln.add acc.1 a c.2, acc.2)) (s, n) =
    ((parts store mix).foldl (fun s p => s.add p.1 p.2) s, n + (mix.filter fun c => (store c.1).isNone).length) := by
  induction mix generalizing s n with
  | nil => rfl
  | cons c mix ih =>
    rw [List.foldl_cons]
    unfold parts
    rw [List.filterMap_cons, List.filter_cons]
    cases h : store c.1 with
    | none =>
      simp only [Option.map_none, Option.isNone_none, if_true, List.length_cons]
      rw [ih]
      congr 1
      omega
    | some a =>
      simp only [Option.map_some, Option.isNone_some, Bool.false_eq_true, if_false, List.foldl_cons]
      rw [ih]; rfl

theorem total_cons {α} (q : α → Rat) (p : α × Rat) (ps : List (α × Rat)) :
    total q (p :: ps) = p.2 * q p.1 + total q ps := by simp [total]

/-- A quantity that `Soln.add` adds up. -/
theorem add_fold {q : Soln → Rat} (hq : ∀ s a x, q (Soln.add s a x) = q s + x * q a) (ps : List (Soln × Rat)) (s : Soln) :
    q (ps.foldl (fun s p => s.add p.1 p.2) s) = q s + total q ps := by
  induction ps generalizing s with
  | nil => simp [total]
  | cons p ps ih => rw [List.foldl_cons, ih, hq, total_cons]; ring

theorem add_totalH (s a : Soln) (x : Rat) : (s.add a x).totalH = s.totalH + x * a.totalH := by
  unfold Soln.add; split_ifs with h
  · rw [h]; ring
  · simp only; ring
theorem add_totalO (s a : Soln) (x : Rat) : (s.add a x).totalO = s.totalO + x * a.totalO := by
  unfold Soln.add; split_ifs with h
  · rw [h]; ring
  · simp only; ring
theorem add_cb (s a : Soln) (x : Rat) : (s.add a x).cb = s.cb + x * a.cb := by
  unfold Soln.add; split_ifs with h
  · rw [h]; ring
  · simp only; ring
theorem add_massWater (s a : Soln) (x : Rat) : (s.add a x).massWater = s.massWater + x * a.massWater := by
  unfold Soln.add; split_ifs with h
  · rw [h]; ring
  · simp only; ring
theorem add_solnVol (s a : Soln) (x : Rat) : (s.add a x).solnVol = s.solnVol + x * a.solnVol := by
  unfold Soln.add; split_ifs with h
  · rw [h]; ring
  · simp only; ring
theorem add_alk (s a : Soln) (x : Rat) : (s.add a x).alk = s.alk + x * a.alk := by
  unfold Soln.add; split_ifs with h
  · rw [h]; ring
  · simp only; ring

theorem val_addExtensive (m addee : ND Rat) (hs : Sorted addee) (f : Rat) (k : Text) :
    val (addExtensive m addee f) k = val m k + f * val addee k := by
  unfold addExtensive
  split_ifs with h
  · rw [h]; ring
  · exact val_fold_addOne f addee hs m k

theorem sorted_addExtensive {m : ND Rat} (h : Sorted m) (addee : ND Rat) (f : Rat) : Sorted (addExtensive m addee f) := by
  unfold addExtensive
  split_ifs
  · exact h
  · exact sorted_fold_addOne f addee h

theorem add_totals (s a : Soln) (ha : Sorted a.totals) (x : Rat) (k : Text) :
    val (s.add a x).totals k = val s.totals k + x * val a.totals k := by
  unfold Soln.add; split_ifs with h
  · rw [h]; ring
  · exact val_addExtensive _ _ ha x k

theorem add_fold_totals (ps : List (Soln × Rat)) (hs : ∀ p ∈ ps, Sorted p.1.totals) (s : Soln) (k : Text) :
    val (ps.foldl (fun s p => s.add p.1 p.2) s).totals k = val s.totals k + total (fun a => val a.totals k) ps := by
  induction ps generalizing s with
  | nil => simp [total]
  | cons p ps ih =>
    rw [List.foldl_cons, ih fun q hq => hs q (List.mem_cons_of_mem _ hq), add_totals _ _ (hs p (by simp)), total_cons]; ring

theorem lin_field {q : Intens → Rat} (hq : q ∈ intFields) (f1 f2 : Rat) (a b : Intens) :
    q (Intens.lin f1 f2 a b) = f1 * q a + f2 * q b := by
  simp only [intFields, List.mem_cons, List.not_mem_nil, or_false] at hq
  rcases hq with rfl | rfl | rfl | rfl | rfl | rfl | rfl | rfl | rfl <;> rfl

/-- Water and weighted intensive numbers after adding solutions with positive fractions. -/
theorem add_fold_int (ps : List (Soln × Rat)) (I : Soln → Intens)
    (hint : ∀ p ∈ ps, p.1.int = some (I p.1)) (hf : ∀ p ∈ ps, 0 < p.2) (hw : ∀ p ∈ ps, 0 < p.1.massWater)
    (s : Soln) (J : Intens) (hs : s.int = some J) (hsw : 0 ≤ s.massWater) :
    ∃ K, (ps.foldl (fun s p => s.add p.1 p.2) s).int = some K ∧ ∀ q ∈ intFields,
      q K * (ps.foldl (fun s p => s.add p.1 p.2) s).massWater =
        q J * s.massWater + total (fun a => a.massWater * q (I a)) ps := by
  induction ps generalizing s J with
  | nil => exact ⟨J, hs, by intro q _; simp [total]⟩
  | cons p ps ih =>
    have hp := hf p (by simp)
    have hpw := hw p (by simp)
    have hpos : 0 < p.1.massWater * p.2 := by positivity
    have hx : p.2 ≠ 0 := ne_of_gt hp
    have hne : s.massWater + p.1.massWater * p.2 ≠ 0 := by linarith
    have h1 : (s.add p.1 p.2).int = some (Intens.lin (s.massWater / (s.massWater + p.1.massWater * p.2))
        (p.1.massWater * p.2 / (s.massWater + p.1.massWater * p.2)) J (I p.1)) := by
      unfold Soln.add
      rw [if_neg hx]
      simp only [mixInt, if_neg hne, hs, hint p (by simp)]
    obtain ⟨K, k1, k2⟩ := ih (fun q hq => hint q (List.mem_cons_of_mem _ hq)) (fun q hq => hf q (List.mem_cons_of_mem _ hq))
      (fun q hq => hw q (List.mem_cons_of_mem _ hq)) (s.add p.1 p.2) _ h1 (by rw [add_massWater]; nlinarith)
    refine ⟨K, k1, fun q hq => ?_⟩
    rw [List.foldl_cons, k2 q hq, lin_field hq, add_massWater, total_cons]
    have e : s.massWater + p.2 * p.1.massWater = s.massWater + p.1.massWater * p.2 := by ring
    rw [e]
    field_simp
    ring

/-! ### add_mix -/

/-- Everything except totals and errors. -/
def Acc.same (a b : Acc) : Prop :=
  a.tc = b.tc ∧ a.ph = b.ph ∧ a.patm = b.patm ∧ a.pe = b.pe ∧ a.mu = b.mu ∧ a.ah2o = b.ah2o ∧ a.viscos = b.viscos ∧
  a.viscos0 = b.viscos0 ∧ a.density = b.density ∧ a.totalH = b.totalH ∧ a.totalO = b.totalO ∧ a.cb = b.cb ∧
  a.massWater = b.massWater

theorem accTotal_same (primary : Text → Option Text) (x : Rat) (a : Acc) (p : Text × Rat) : (accTotal primary x a p).same a := by
  unfold accTotal; split <;> simp [Acc.same]

theorem Acc.same_trans {a b c : Acc} (h1 : a.same b) (h2 : b.same c) : a.same c := by
  obtain ⟨a1, a2, a3, a4, a5, a6, a7, a8, a9, a10, a11, a12, a13⟩ := h1
  obtain ⟨b1, b2, b3, b4, b5, b6, b7, b8, b9, b10, b11, b12, b13⟩ := h2
  exact ⟨a1.trans b1, a2.trans b2, a3.trans b3, a4.trans b4, a5.trans b5, a6.trans b6, a7.trans b7, a8.trans b8,
    a9.trans b9, a10.trans b10, a11.trans b11, a12.trans b12, a13.trans b13⟩

theorem accTotals_same (primary : Text → Option Text) (x : Rat) (l : ND Rat) (a : Acc) :
    (l.foldl (accTotal primary x) a).same a := by
  induction l generalizing a with
  | nil => simp [Acc.same]
  | cons p l ih => exact Acc.same_trans (ih _) (accTotal_same primary x a p)

theorem addSolution_int {w : (Acc → Rat) × (Intens → Rat)} (h : w ∈ accInt) (primary : Text → Option Text) (a : Acc)
    (s : Soln) (i : Intens) (e t : Rat) : w.1 (addSolution primary a s i e t) = w.1 a + t * w.2 i := by
  unfold addSolution
  obtain ⟨a1, a2, a3, a4, a5, a6, a7, a8, a9, a10, a11, a12, a13⟩ := accTotals_same primary e s.totals
    { a with
      tc := a.tc + i.tc * t, ph := a.ph + i.ph * t, patm := a.patm + i.patm * t
      pe := a.pe + i.pe * t, mu := a.mu + i.mu * t, ah2o := a.ah2o + i.ah2o * t
      viscos := a.viscos + i.viscosity * t, viscos0 := a.viscos0 + i.viscos0 * t
      density := a.density + i.density * t
      totalH := a.totalH + s.totalH * e, totalO := a.totalO + s.totalO * e
      cb := a.cb + s.cb * e, massWater := a.massWater + s.massWater * e }
  simp only [accInt, List.mem_cons, List.not_mem_nil, or_false] at h
  rcases h with rfl | rfl | rfl | rfl | rfl | rfl | rfl | rfl | rfl
  · simp only [a1]; ring
  · simp only [a2]; ring
  · simp only [a3]; ring
  · simp only [a4]; ring
  · simp only [a5]; ring
  · simp only [a6]; ring
  · simp only [a7]; ring
  · simp only [a8]; ring
  · simp only [a9]; ring

theorem addSolution_ext {w : (Acc → Rat) × (Soln → Rat)} (h : w ∈ accExt) (primary : Text → Option Text) (a : Acc)
    (s : Soln) (i : Intens) (e t : Rat) : w.1 (addSolution primary a s i e t) = w.1 a + e * w.2 s := by
  unfold addSolution
  obtain ⟨a1, a2, a3, a4, a5, a6, a7, a8, a9, a10, a11, a12, a13⟩ := accTotals_same primary e s.totals
    { a with
      tc := a.tc + i.tc * t, ph := a.ph + i.ph * t, patm := a.patm + i.patm * t
      pe := a.pe + i.pe * t, mu := a.mu + i.mu * t, ah2o := a.ah2o + i.ah2o * t
      viscos := a.viscos + i.viscosity * t, viscos0 := a.viscos0 + i.viscos0 * t
      density := a.density + i.density * t
      totalH := a.totalH + s.totalH * e, totalO := a.totalO + s.totalO * e
      cb := a.cb + s.cb * e, massWater := a.massWater + s.massWater * e }
  simp only [accExt, List.mem_cons, List.not_mem_nil, or_false] at h
  rcases h with rfl | rfl | rfl | rfl
  · simp only [a10]; ring
  · simp only [a11]; ring
  · simp only [a12]; ring
  · simp only [a13]; ring

theorem accTotals_totals (primary : Text → Option Text) (x : Rat) (l : ND Rat) (a : Acc) (e : Text) :
    (l.foldl (accTotal primary x) a).totals e = a.totals e + x * primarySum primary l e := by
  induction l generalizing a with
  | nil => simp [primarySum]
  | cons p l ih =>
    rw [List.foldl_cons, ih]
    unfold primarySum accTotal
    rw [List.filter_cons]
    cases h : primary p.1 with
    | none => simp
    | some d =>
      by_cases hd : d = e
      · subst hd; simp; ring
      · have : ¬ e = d := fun h => hd h.symm
        simp [hd, this]

theorem addSolution_totals (primary : Text → Option Text) (a : Acc) (s : Soln) (i : Intens) (x t : Rat) (e : Text) :
    (addSolution primary a s i x t).totals e = a.totals e + x * primarySum primary s.totals e := by
  unfold addSolution; rw [accTotals_totals]

theorem mixFold_ext (primary : Text → Option Text) (store : Stored) (sums : Rat × Rat × Nat) (n : Nat)
    {w : (Acc → Rat) × (Soln → Rat)} (h : w ∈ accExt) (mix : List (Int × Rat)) (a : Acc) :
    w.1 (mix.foldl (mixOne primary store sums n) a) = w.1 a + total (fun p => w.2 p.1) (parts store mix) := by
  induction mix generalizing a with
  | nil => simp [total, parts]
  | cons c mix ih =>
    rw [List.foldl_cons, ih]
    unfold mixOne parts
    rw [List.filterMap_cons]
    cases hs : store c.1 with
    | none =>
      have : w.1 { a with errors := a.errors + 1 } = w.1 a := by
        simp only [accExt, List.mem_cons, List.not_mem_nil, or_false] at h
        rcases h with rfl | rfl | rfl | rfl <;> rfl
      simp only [this, Option.map_none]
    | some p =>
      obtain ⟨s, i⟩ := p
      simp only [Option.map_some, total_cons, addSolution_ext h]
      ring

theorem mixFold_totals (primary : Text → Option Text) (store : Stored) (sums : Rat × Rat × Nat) (n : Nat)
    (mix : List (Int × Rat)) (a : Acc) (e : Text) :
    (mix.foldl (mixOne primary store sums n) a).totals e =
      a.totals e + total (fun p => primarySum primary p.1.totals e) (parts store mix) := by
  induction mix generalizing a with
  | nil => simp [total, parts]
  | cons c mix ih =>
    rw [List.foldl_cons, ih]
    unfold mixOne parts
    rw [List.filterMap_cons]
    cases hs : store c.1 with
    | none => simp
    | some p =>
      obtain ⟨s, i⟩ := p
      simp only [Option.map_some, total_cons, addSolution_totals]
      ring

theorem mixFold_int (primary : Text → Option Text) (store : Stored) (sums : Rat × Rat × Nat) (n : Nat)
    {w : (Acc → Rat) × (Intens → Rat)} (h : w ∈ accInt) (mix : List (Int × Rat)) (a : Acc) :
    w.1 (mix.foldl (mixOne primary store sums n) a) =
      w.1 a + ((parts store mix).map fun p => weight sums n p.2 p.1.1.massWater * w.2 p.1.2).sum := by
  induction mix generalizing a with
  | nil => simp [parts]
  | cons c mix ih =>
    rw [List.foldl_cons, ih]
    unfold mixOne parts
    rw [List.filterMap_cons]
    cases hs : store c.1 with
    | none =>
      have : w.1 { a with errors := a.errors + 1 } = w.1 a := by
        simp only [accInt, List.mem_cons, List.not_mem_nil, or_false] at h
        rcases h with rfl | rfl | rfl | rfl | rfl | rfl | rfl | rfl | rfl <;> rfl
      simp only [this, Option.map_none]
    | some p =>
      obtain ⟨s, i⟩ := p
      simp only [Option.map_some, List.map_cons, List.sum_cons, addSolution_int h]
      ring

theorem mixSums_eq (store : Stored) (mix : List (Int × Rat)) (hpos : ∀ p ∈ parts store mix, 0 < p.2) (t : Rat × Rat × Nat)
    (ht : t.1 = t.2.1) :
    let r := mix.foldl (fun (t : Rat × Rat × Nat) (c : Int × Rat) =>
      match store c.1 with
      | none => t
      | some (s, _) =>
        (t.1 + c.2 * s.massWater,
         if 0 < c.2 then t.2.1 + c.2 * s.massWater else t.2.1,
         if 0 < c.2 then t.2.2 + 1 else t.2.2)) t
    r.1 = t.1 + total (fun p => p.1.massWater) (parts store mix) ∧ r.2.1 = r.1 := by
  induction mix generalizing t with
  | nil => simp [total, parts, ht]
  | cons c mix ih =>
    have hcons : parts store (c :: mix) = (match (store c.1) with | none => parts store mix | some s => (s, c.2) :: parts store mix) := by
      unfold parts; rw [List.filterMap_cons]
      cases store c.1 <;> rfl
    simp only [List.foldl_cons]
    cases hs : store c.1 with
    | none =>
      rw [hs] at hcons
      simp only at hcons ⊢
      rw [hcons] at hpos ⊢
      exact ih hpos t ht
    | some p =>
      obtain ⟨s, i⟩ := p
      rw [hs] at hcons
      simp only at hcons ⊢
      rw [hcons] at hpos ⊢
      have hc := hpos ((s, i), c.2) (by simp)
      simp only at hc
      obtain ⟨i1, i2⟩ := ih (fun q hq => hpos q (List.mem_cons_of_mem _ hq))
        (t.1 + c.2 * s.massWater, if 0 < c.2 then t.2.1 + c.2 * s.massWater else t.2.1, if 0 < c.2 then t.2.2 + 1 else t.2.2)
        (by simp [hc, ht])
      refine ⟨?_, i2⟩
      rw [i1, total_cons]; ring

end Verif.Nd
