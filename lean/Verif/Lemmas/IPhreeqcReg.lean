import Verif.Lemmas.IPhreeqc
/- Helper lemmas for the instance registry. -/
namespace Verif.IPq

theorem toIndex_inj {a b : Int} (ha : IsInt a) (hb : IsInt b) (h : toIndex a = toIndex b) : a = b := by
  unfold toIndex at h; unfold IsInt at ha hb
  omega

theorem toIndex_nat (n : Nat) (h : n < 2147483648) : toIndex (n : Int) = n := by unfold toIndex; omega

theorem toIndex_neg {a : Int} (ha : IsInt a) (hn : a < 0) : 2147483648 ≤ toIndex a := by
  unfold toIndex; unfold IsInt at ha; omega

theorem toInt_small (n : Nat) (h : n < 2147483648) : toInt n = n := by
  unfold toInt
  rw [Nat.mod_eq_of_lt (by omega), if_pos h]

theorem runCalls_append {F E} (e : Engine F E) (fs : Text → Option Text) (a b : List Call) (i : Inst F E) :
    runCalls e fs i (a ++ b) = (runCalls e fs i a).bind fun j => runCalls e fs j b := by
  induction a generalizing i with
  | nil => rfl
  | cons c a ih =>
    simp only [List.cons_append, runCalls]
    cases step e fs i c with
    | none => rfl
    | some p => exact ih p.1

/-- The registry after a history. -/
structure RegOk {F E} (e : Engine F E) (fs : Text → Option Text) (r : Reg F E) (h : List (Req × Int)) : Prop where
  free : ∀ k, r.next ≤ k → r.insts k = none
  inst : ∀ id, IsInt id → r.find id = (own id h).bind (runCalls e fs (create e))

theorem own_snoc (id : Int) (h : List (Req × Int)) (x : Req × Int) : own id (h ++ [x]) = ownStep id (own id h) x := by
  simp [own]

theorem regOk_init {F E} (e : Engine F E) (fs : Text → Option Text) : RegOk e fs Reg.init [] :=
  ⟨fun _ _ => rfl, fun _ _ => rfl⟩

theorem regOk_step {F E} (e : Engine F E) (fs : Text → Option Text) (r : Reg F E) (h : List (Req × Int)) (q : Req)
    (p : Reg F E × Int) (hr : RegOk e fs r h) (hq : q.ok) (hn : q = .create → r.next < 2147483648)
    (hle : r.next ≤ 2147483648) (hs : r.step e fs q = some p) :
    RegOk e fs p.1 (h ++ [(q, p.2)]) ∧ p.1.next = r.next + (if q = .create then 1 else 0) := by
  cases q with
  | create =>
    simp only [Reg.step, Option.some.injEq] at hs
    subst hs
    have hlt := hn rfl
    refine ⟨⟨?_, ?_⟩, by simp⟩
    · intro k hk
      simp only at hk ⊢
      unfold setAt
      rw [if_neg (by omega)]
      exact hr.free k (by omega)
    · intro id hid
      rw [own_snoc]
      simp only [ownStep, toInt_small _ hlt, Reg.find, setAt]
      by_cases h1 : (r.next : Int) = id
      · subst h1
        rw [toIndex_nat _ hlt]
        simp [runCalls]
      · have h2 : ¬ toIndex id = r.next := by
          intro hx
          rw [← toIndex_nat r.next hlt] at hx
          exact h1 (toIndex_inj ⟨by omega, by omega⟩ hid hx.symm)
        rw [if_neg h1, if_neg h2]
        exact hr.inst id hid
  | destroy k =>
    have hk : IsInt k := hq
    have hfind := hr.inst k hk
    have keep : r.find k = none → RegOk e fs r (h ++ [(.destroy k, -6)]) := by
      intro hnone
      refine ⟨hr.free, fun id hid => ?_⟩
      rw [own_snoc]
      simp only [ownStep]
      by_cases h1 : k = id
      · subst h1; simpa using hnone
      · simpa [h1] using hr.inst id hid
    simp only [Reg.step] at hs
    split at hs
    · split at hs
      · rename_i hnone
        simp only [Option.some.injEq] at hs; subst hs
        exact ⟨keep hnone, by simp⟩
      · rename_i i hsome
        simp only [Option.some.injEq] at hs; subst hs
        refine ⟨⟨?_, ?_⟩, by simp⟩
        · intro j hj
          simp only [setAt]
          split
          · rfl
          · exact hr.free j hj
        · intro id hid
          rw [own_snoc]
          simp only [ownStep, Reg.find, setAt]
          by_cases h1 : k = id
          · subst h1; simp
          · have h2 : ¬ toIndex id = toIndex k := fun hx => h1 (toIndex_inj hk hid hx.symm)
            rw [if_neg h1, if_neg h2]
            exact hr.inst id hid
    · rename_i hneg
      simp only [Option.some.injEq] at hs; subst hs
      refine ⟨keep ?_, by simp⟩
      exact hr.free _ (Nat.le_trans hle (toIndex_neg hk (by omega)))
  | call k c =>
    have hk : IsInt k := hq
    simp only [Reg.step] at hs
    split at hs
    · rename_i hnone
      simp only [Option.some.injEq] at hs; subst hs
      refine ⟨⟨hr.free, fun id hid => ?_⟩, by simp⟩
      rw [own_snoc]
      simp only [ownStep]
      by_cases h1 : k = id
      · subst h1
        have := hr.inst k hk
        rw [hnone] at this
        rw [hnone, if_pos rfl]
        cases ho : own k h with
        | none => rfl
        | some cs =>
          rw [ho] at this
          simp only [Option.bind_some] at this
          simp only [Option.map_some, Option.bind_some, runCalls_append, ← this, Option.bind_none]
      · simpa [h1] using hr.inst id hid
    · rename_i i hsome
      rw [Option.map_eq_some_iff] at hs
      obtain ⟨z, hz, rfl⟩ := hs
      refine ⟨⟨?_, ?_⟩, by simp⟩
      · intro j hj
        simp only [setAt]
        split
        · rename_i hjk
          subst hjk
          have := hr.free _ hj
          unfold Reg.find at hsome
          rw [this] at hsome
          cases hsome
        · exact hr.free j hj
      · intro id hid
        rw [own_snoc]
        simp only [ownStep, Reg.find, setAt]
        by_cases h1 : k = id
        · subst h1
          have := hr.inst k hk
          rw [hsome] at this
          rw [if_pos rfl, if_pos rfl]
          cases ho : own k h with
          | none => rw [ho] at this; simp at this
          | some cs =>
            rw [ho] at this
            simp only [Option.bind_some] at this
            simp only [Option.map_some, Option.bind_some, runCalls_append, ← this, runCalls, hz]
        · have h2 : ¬ toIndex id = toIndex k := fun hx => h1 (toIndex_inj hk hid hx.symm)
          rw [if_neg h1, if_neg h2]
          exact hr.inst id hid

theorem creations_cons (q : Req) (qs : List Req) :
    creations (q :: qs) = creations qs + (if q = .create then 1 else 0) := by
  unfold creations
  rw [List.countP_cons]
  simp

theorem regOk_run {F E} (e : Engine F E) (fs : Text → Option Text) (qs : List Req) (r : Reg F E) (h : List (Req × Int))
    (z : Reg F E × List (Req × Int)) (hr : RegOk e fs r h) (hq : ∀ q ∈ qs, q.ok)
    (hc : r.next + creations qs ≤ 2147483648) (hz : runReqs e fs r qs = some z) :
    RegOk e fs z.1 (h ++ z.2) ∧ z.1.next = r.next + creations qs := by
  induction qs generalizing r h z with
  | nil => simp only [runReqs, Option.some.injEq] at hz; subst hz; simpa [creations] using hr
  | cons q qs ih =>
    rw [creations_cons] at hc
    simp only [runReqs, Option.bind_eq_some_iff, Option.map_eq_some_iff] at hz
    obtain ⟨p, hp, y, hy, rfl⟩ := hz
    obtain ⟨h1, h2⟩ := regOk_step e fs r h q p hr (hq q (by simp)) (fun he => by rw [if_pos he] at hc; omega)
      (by omega) hp
    have := ih p.1 (h ++ [(q, p.2)]) y h1 (fun q' hq' => hq q' (by simp [hq'])) (by rw [h2]; omega) hy
    refine ⟨by simpa using this.1, by rw [this.2, h2, creations_cons]; omega⟩

/-- The answer to a creation is the number of creations before it. -/
theorem create_answer {F E} (e : Engine F E) (fs : Text → Option Text) (qs : List Req) (r : Reg F E)
    (z : Reg F E × List (Req × Int)) (hz : runReqs e fs r qs = some z) :
    (z.2.map (·.1) = qs) ∧ ∀ A a B, z.2 = A ++ (.create, a) :: B → a = toInt (r.next + creations (A.map (·.1))) := by
  induction qs generalizing r z with
  | nil =>
    simp only [runReqs, Option.some.injEq] at hz; subst hz
    exact ⟨rfl, by simp⟩
  | cons q qs ih =>
    simp only [runReqs, Option.bind_eq_some_iff, Option.map_eq_some_iff] at hz
    obtain ⟨p, hp, y, hy, rfl⟩ := hz
    have hnext : p.1.next = r.next + (if q = .create then 1 else 0) := by
      cases q with
      | create => simp only [Reg.step, Option.some.injEq] at hp; subst hp; rfl
      | destroy k =>
        simp only [Reg.step] at hp
        split at hp
        · split at hp <;> (simp only [Option.some.injEq] at hp; subst hp; simp)
        · simp only [Option.some.injEq] at hp; subst hp; simp
      | call k c =>
        simp only [Reg.step] at hp
        split at hp
        · simp only [Option.some.injEq] at hp; subst hp; simp
        · rw [Option.map_eq_some_iff] at hp
          obtain ⟨w, _, rfl⟩ := hp
          simp
    obtain ⟨i1, i2⟩ := ih p.1 y hy
    refine ⟨by simp [i1], ?_⟩
    intro A a B hA
    rcases A with _ | ⟨x, A⟩
    · simp only [List.nil_append, List.cons.injEq, Prod.mk.injEq] at hA
      obtain ⟨⟨rfl, rfl⟩, _⟩ := hA
      simp only [Reg.step, Option.some.injEq] at hp; subst hp
      simp [creations]
    · simp only [List.cons_append, List.cons.injEq] at hA
      obtain ⟨rfl, hA⟩ := hA
      rw [i2 A a B hA, hnext, List.map_cons, creations_cons]
      congr 1
      simp only
      omega

theorem runReqs_creates {F E} (e : Engine F E) (fs : Text → Option Text) (n : Nat) (r : Reg F E) :
    ∃ z, runReqs e fs r (List.replicate n .create) = some z := by
  induction n generalizing r with
  | zero => exact ⟨_, rfl⟩
  | succ n ih =>
    simp only [List.replicate_succ, runReqs, Reg.step, Option.bind_some]
    obtain ⟨z, hz⟩ := ih ⟨r.next + 1, setAt r.insts r.next (some (create e))⟩
    rw [hz]
    exact ⟨_, rfl⟩

end Verif.IPq
