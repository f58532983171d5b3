import Verif.Lemmas.TransportTidy
import Verif.Spec.TransportMru
/-
What a unit records as crossing its boundary.
-/
namespace Verif.Transport
open Verif.Reservoir (Vol Rows BinOut Par In sumOf fall inch2m)

/-- A call that concerns neither the boundary of a unit nor its hillslope. -/
def Ev.inner (f : Flow) : Ev → Prop
  | .call row _ _ _ _ mru _ _ => mru = false ∧ row ≠ f.key false 10
  | _ => True

/-- What is recorded as crossing the boundary is recorded for a row of the unit. -/
def Ev.fenced (u : Nat) : Ev → Prop
  | .call row _ _ _ _ mru _ _ => mru = true → row.unit? = some u
  | _ => True

/-- Nothing has been recorded as crossing the boundary. -/
def Calm (f : Flow) (s s' : St) : Prop := ∃ m, s'.log = s.log ++ m ∧ ∀ e ∈ m, e.inner f

theorem Calm.refl {f : Flow} {s : St} : Calm f s s := ⟨[], by simp, by simp⟩

theorem Calm.trans {f : Flow} {s s1 s2 : St} (h : Calm f s s1) (h' : Calm f s1 s2) : Calm f s s2 := by
  obtain ⟨m, h1, h2⟩ := h
  obtain ⟨m', h1', h2'⟩ := h'
  refine ⟨m ++ m', by rw [h1', h1, List.append_assoc], fun e he => ?_⟩
  rcases List.mem_append.1 he with he | he
  · exact h2 e he
  · exact h2' e he

theorem Calm.note {f : Flow} {s s1 : St} (h : Calm f s s1) (k : Key) (metric : Int) (v : Rat) (b c : Bool)
    (hk : k.row ≠ f.key false 10) : Calm f s (note k metric v false b c s1) := by
  refine h.trans ⟨_, rfl, fun e he => ?_⟩
  simp only [List.mem_cons, List.not_mem_nil, or_false] at he
  subst he; exact ⟨rfl, hk⟩

theorem Calm.book {f : Flow} {s s1 : St} (h : Calm f s s1) (k : Key) (v : Vol) : Calm f s (book k v s1) := by
  refine h.trans ⟨_, rfl, fun e he => ?_⟩
  simp only [List.mem_cons, List.not_mem_nil, or_false] at he
  subst he; trivial

theorem Calm.mix {f : Flow} {s s1 : St} (h : Calm f s s1) (rx : Ent → Sol → Sol) (l : Parts) (c d : Key) (e : Ent) : Calm f s (mix rx l c d e s1) := h
theorem Calm.join {f : Flow} {s s1 : St} (h : Calm f s s1) (rx : Ent → Sol → Sol) (g : Flow) (k : Nat) (v : Vol) : Calm f s (join rx g k v s1) := h
theorem Calm.evaporate {f : Flow} {s s1 : St} (h : Calm f s s1) (rx : Ent → Sol → Sol) (c d : Key) (e : Ent) (v : Vol) :
    Calm f s (evaporate rx c d e v s1) := h
theorem Calm.pulse {f : Flow} {s s1 : St} (h : Calm f s s1) (b : Bool) : Calm f s { s1 with pulse := b } := h

theorem Calm.cond {f : Flow} {s s1 s2 : St} {P : Prop} [Decidable P] (h1 : Calm f s s1) (h2 : Calm f s s2) : Calm f s (if P then s1 else s2) := by
  split
  · exact h1
  · exact h2

macro "calm_down" : tactic => `(tactic| repeat' first
  | with_reducible exact Calm.refl
  | with_reducible refine Calm.cond ?_ ?_
  | with_reducible refine Calm.note ?_ _ _ _ _ _ ?_
  | with_reducible refine Calm.book ?_ _ _
  | with_reducible refine Calm.evaporate ?_ _ _ _ _ _
  | with_reducible refine Calm.join ?_ _ _ _ _
  | with_reducible refine Calm.mix ?_ _ _ _ _ _
  | with_reducible refine Calm.pulse ?_ _
  | (simp [Flow.key, Key.row]; done))

theorem gwInput_calm (rx : Ent → Sol → Sol) (f : Flow) (s : St) : Calm f s (gwInput rx f s) := by
  unfold gwInput
  dsimp only
  split
  · refine ⟨_, rfl, fun e he => ?_⟩
    simp only [List.mem_cons, List.not_mem_nil, or_false] at he
    subst he; trivial
  · exact Calm.refl

theorem gwLoss_calm (f : Flow) (s : St) : Calm f s (gwLoss f s) := by
  unfold gwLoss
  dsimp only
  split
  · refine ⟨_, rfl, fun e he => ?_⟩
    simp only [List.mem_cons, List.not_mem_nil, or_false] at he
    subst he; trivial
  · exact Calm.refl

theorem canopy1_calm (rx : Ent → Sol → Sol) (f : Flow) (s : St) : Calm f s (canopy1 rx f s) := by
  unfold canopy1; dsimp only; calm_down

theorem snow_calm (rx : Ent → Sol → Sol) (f : Flow) (s : St) : Calm f s (snow rx f s) := by
  unfold snow melt; dsimp only; calm_down

theorem ohoriz_calm (rx : Ent → Sol → Sol) (f : Flow) (s : St) : Calm f s (ohoriz rx f s) := by
  unfold ohoriz; dsimp only; calm_down

theorem satToUz_calm (rx : Ent → Sol → Sol) (f : Flow) (s : St) : Calm f s (satToUz rx f s) := by
  unfold satToUz; calm_down

theorem binLoop_calm (rx : Ent → Sol → Sol) (f : Flow) (bs : List BinOut) (j : Nat) (s : St) : Calm f s (binLoop rx f j bs s) := by
  induction bs generalizing j s with
  | nil => exact Calm.refl
  | cons b bs ih =>
    refine Calm.trans ?_ (ih _ _)
    unfold binStep binIn
    dsimp only
    calm_down

theorem canopy2_calm (rx : Ent → Sol → Sol) (f : Flow) (s : St) : Calm f s (canopy2 rx f s) := by
  unfold canopy2; dsimp only; calm_down

theorem recharge_calm (rx : Ent → Sol → Sol) (f : Flow) (s : St) : Calm f s (recharge rx f s) := by
  unfold recharge; dsimp only; calm_down

theorem qdf_calm (rx : Ent → Sol → Sol) (f : Flow) (s : St) : Calm f s (qdf rx f s) := by
  unfold qdf; dsimp only; calm_down

theorem sat_calm (rx : Ent → Sol → Sol) (f : Flow) (s : St) : Calm f s (sat rx f s) := by
  unfold sat satIn; dsimp only; calm_down

theorem satpref_calm (rx : Ent → Sol → Sol) (f : Flow) (s : St) : Calm f s (satpref rx f s) := by
  unfold satpref; dsimp only; calm_down

/-- In the section of deposition: input is that of the row of deposition, output that of the saturated zone. -/
theorem deposit_cross (rx : Ent → Sol → Sol) (f : Flow) (s : St) : ∃ m, (deposit rx f s).log = s.log ++ m ∧
    ∀ e ∈ m, e.crossIn f.unit = e.into (f.key false 11) ∧ e.crossOut f.unit = e.from (f.key false 8) ∧ e.from (f.key false 10) = 0 ∧
            e.fenced f.unit := by
  unfold deposit
  split
  · have hs : ∀ c ∈ sources f, (c.2.2.2.1 = true ∧ c.1 = f.key false 8 ∧ c.2.2.1 = 3) ∨
        (c.2.2.2.1 = false ∧ c.1.row ≠ f.key false 8 ∧ c.1.row ≠ f.key false 11 ∧ c.1.row ≠ f.key false 10) := by
      intro c hc
      unfold sources at hc
      simp only [List.mem_append] at hc
      rcases hc with ((hc | hc) | hc) | hc <;> split at hc <;> simp only [List.mem_cons, List.not_mem_nil, or_false] at hc <;> subst hc
      · exact Or.inr ⟨rfl, by simp [Key.row, Flow.key], by simp [Key.row, Flow.key], by simp [Key.row, Flow.key]⟩
      · exact Or.inr ⟨rfl, by simp [Key.row, Flow.key], by simp [Key.row, Flow.key], by simp [Key.row, Flow.key]⟩
      · exact Or.inl ⟨rfl, rfl, rfl⟩
      · exact Or.inr ⟨rfl, by simp [Key.row, Flow.key], by simp [Key.row, Flow.key], by simp [Key.row, Flow.key]⟩
    have key : ∀ (l : List (Key × Rat × Int × Bool × Bool)), (∀ c ∈ l, (c.2.2.2.1 = true ∧ c.1 = f.key false 8 ∧ c.2.2.1 = 3) ∨
        (c.2.2.2.1 = false ∧ c.1.row ≠ f.key false 8 ∧ c.1.row ≠ f.key false 11 ∧ c.1.row ≠ f.key false 10)) → ∀ s : St,
        ∃ m, (l.foldl (fun s c => readOff rx c.1 c.2.2.1 c.2.1 c.2.2.2.1 c.2.2.2.2 s) s).log = s.log ++ m ∧
          ∀ e ∈ m, e.crossIn f.unit = e.into (f.key false 11) ∧ e.crossOut f.unit = e.from (f.key false 8) ∧ e.from (f.key false 10) = 0 ∧
            e.fenced f.unit := by
      intro l
      induction l with
      | nil => intro _ s; exact ⟨[], by simp, by simp⟩
      | cons c l ih =>
        intro hl s
        obtain ⟨m, h1, h2⟩ := ih (fun c hc => hl c (List.mem_cons_of_mem _ hc)) (readOff rx c.1 c.2.2.1 c.2.1 c.2.2.2.1 c.2.2.2.2 s)
        refine ⟨_ :: m, by rw [List.foldl_cons, h1]; simp only [readOff, note, List.append_assoc, List.singleton_append]; rfl, ?_⟩
        intro e he
        rcases List.mem_cons.1 he with rfl | he
        · rcases hl c List.mem_cons_self with ⟨a1, a2, a3⟩ | ⟨a1, a2, a3, a4⟩
          · simp [Ev.crossIn, Ev.into, Ev.crossOut, Ev.from, a1, a2, a3, Key.row, Flow.key, Key.unit?, Ev.fenced]
          · simp [Ev.crossIn, Ev.into, Ev.crossOut, Ev.from, a1, Ne.symm a2, Ne.symm a3, Ne.symm a4, Ev.fenced]
        · exact h2 e he
    obtain ⟨m, h1, h2⟩ := key (sources f) hs s
    dsimp only
    refine ⟨m ++ [_], by simp only [note]; rw [show ∀ s : St, (mix rx (checked ((sources f).map fun c => (c.1, c.2.1 / f.dep)))
      (f.key false 11) (f.key false 11) .atm s).log = s.log from fun _ => rfl, h1, List.append_assoc], ?_⟩
    intro e he
    rcases List.mem_append.1 he with he | he
    · exact h2 e he
    · rw [List.mem_singleton.1 he]
      simp [Ev.crossIn, Ev.into, Ev.crossOut, Ev.from, Key.row, Flow.key, Key.unit?, Ev.fenced]
  · exact ⟨[], by simp, by simp⟩

theorem hill_cross (rx : Ent → Sol → Sol) (f : Flow) (s : St) : ∃ m, (hill rx f s).log = s.log ++ m ∧
    ∀ e ∈ m, e.crossIn f.unit = 0 ∧ e.crossOut f.unit = e.from (f.key false 10) ∧ e.fenced f.unit := by
  unfold hill
  dsimp only
  split
  · refine ⟨_, rfl, fun e he => ?_⟩
    simp only [List.mem_cons, List.not_mem_nil, or_false] at he
    subst he
    simp [Ev.crossIn, Ev.crossOut, Ev.from, Key.row, Flow.key, Key.unit?, Ev.fenced]
  · exact ⟨[], by simp, by simp⟩

theorem inner_fenced {f : Flow} {u : Nat} {e : Ev} (h : e.inner f) : e.fenced u := by
  cases e with
  | call row _ _ _ _ mru _ _ => intro hm; rw [h.1] at hm; exact absurd hm (by simp)
  | _ => trivial

theorem inner_cross {f : Flow} {u : Nat} {m : List Ev} (h : ∀ e ∈ m, e.inner f) :
    recCrossIn u m = 0 ∧ recCrossOut u m = 0 ∧ recOut (f.key false 10) m = 0 := by
  induction m with
  | nil => simp [recCrossIn, recCrossOut, recOut]
  | cons e m ih =>
    obtain ⟨h1, h2, h3⟩ := ih fun e he => h e (List.mem_cons_of_mem _ he)
    have := h e List.mem_cons_self
    simp only [recCrossIn, recCrossOut, recOut, List.map_cons, List.sum_cons] at *
    rw [h1, h2, h3]
    cases e with
    | call row _ _ _ _ _ _ _ =>
      obtain ⟨a, b⟩ := this
      subst a
      simp [Ev.crossIn, Ev.crossOut, Ev.from, Ne.symm b]
    | _ => simp [Ev.crossIn, Ev.crossOut, Ev.from]

theorem cross_append (u : Nat) (l l' : List Ev) :
    recCrossIn u (l ++ l') = recCrossIn u l + recCrossIn u l' ∧ recCrossOut u (l ++ l') = recCrossOut u l + recCrossOut u l' := by
  simp [recCrossIn, recCrossOut]

/-- The boundary of a unit. -/
theorem flow_cross {rx : Ent → Sol → Sol} (hd : Dry rx) {f : Flow} (ho : f.Ok) (hr : f.Regular) (s : St) (hF : Full s.sol) :
    ∃ l, (flow rx f s).log = s.log ++ l ∧ recCrossIn f.unit l = fallenMol f s ∧
      recCrossOut f.unit l = f.well * at_ s (f.key false 8) + f.r.hill.out * at_ (flow rx f s) (f.key true 10) ∧
      ∀ e ∈ l, e.fenced f.unit := by
  have h := ho.facts
  obtain ⟨q, Q1, Q2⟩ := flow_recorded hd ho hr s hF
  have hhill := Q2.hill
  obtain ⟨l1, L1, -, -, R1, R1s, -⟩ := deposit_log hd ho { s with pulse := false } hF
  obtain ⟨l1', L1', C1⟩ := deposit_cross rx f { s with pulse := false }
  have e1 : l1' = l1 := List.append_cancel_left (L1'.symm.trans L1)
  subst e1
  have hmid : Calm f (deposit rx f { s with pulse := false }) (satpref rx f (gwLoss f (sat rx f (qdf rx f (recharge rx f (canopy2 rx f
      (binLoop rx f 1 f.bins (satToUz rx f (ohoriz rx f (snow rx f (canopy1 rx f (gwInput rx f (deposit rx f { s with pulse := false }))))))))))))) :=
    (((((((((((gwInput_calm rx f _).trans (canopy1_calm rx f _)).trans (snow_calm rx f _)).trans (ohoriz_calm rx f _)).trans
      (satToUz_calm rx f _)).trans (binLoop_calm rx f _ _ _)).trans (canopy2_calm rx f _)).trans (recharge_calm rx f _)).trans
      (qdf_calm rx f _)).trans (sat_calm rx f _)).trans (gwLoss_calm f _)).trans (satpref_calm rx f _)
  obtain ⟨m, M1, M2⟩ := hmid
  obtain ⟨l3, L3, C3⟩ := hill_cross rx f (satpref rx f (gwLoss f (sat rx f (qdf rx f (recharge rx f (canopy2 rx f
      (binLoop rx f 1 f.bins (satToUz rx f (ohoriz rx f (snow rx f (canopy1 rx f (gwInput rx f (deposit rx f { s with pulse := false })))))))))))))
  obtain ⟨m1, m2, m3⟩ := inner_cross (u := f.unit) M2
  have hlog : (flow rx f s).log = s.log ++ (l1' ++ m ++ l3) := by
    unfold flow
    dsimp only
    rw [L3, M1, L1]
    simp only [List.append_assoc]
  have hq : q = l1' ++ m ++ l3 := List.append_cancel_left (Q1.symm.trans hlog)
  have a1 : recCrossIn f.unit l1' = recIn (f.key false 11) l1' := by
    unfold recCrossIn recIn; rw [List.map_congr_left fun e he => (C1 e he).1]
  have a2 : recCrossOut f.unit l1' = recOut (f.key false 8) l1' := by
    unfold recCrossOut recOut; rw [List.map_congr_left fun e he => (C1 e he).2.1]
  have a3 : recOut (f.key false 10) l1' = 0 := by
    unfold recOut
    rw [List.map_congr_left fun e he => (C1 e he).2.2.1]
    simp
  have b1 : recCrossIn f.unit l3 = 0 := by
    unfold recCrossIn
    rw [List.map_congr_left fun e he => (C3 e he).1]
    simp
  have b2 : recCrossOut f.unit l3 = recOut (f.key false 10) l3 := by
    unfold recCrossOut recOut; rw [List.map_congr_left fun e he => (C3 e he).2.1]
  have r1 : recIn (f.key false 11) l1' = fallenMol f s := congrArg Rec.inp R1
  have r2 : recOut (f.key false 8) l1' = f.well * mo s (f.key false 8) := congrArg Rec.out R1s
  have r3 : recOut (f.key false 10) l3 = f.r.hill.out * at_ (flow rx f s) (f.key true 10) := by
    rw [← hhill, hq]
    simp only [recOut, List.map_append, List.sum_append] at m3 a3 ⊢
    rw [m3, a3]; ring
  refine ⟨l1' ++ m ++ l3, hlog, ?_, ?_, ?_⟩
  · rw [(cross_append _ _ _).1, (cross_append _ _ _).1, a1, r1, m1, b1]; ring
  · rw [(cross_append _ _ _).2, (cross_append _ _ _).2, a2, r2, m2, b2, r3, at_full hF]; ring
  · intro e he
    rcases List.mem_append.1 he with he | he
    · rcases List.mem_append.1 he with he | he
      · exact (C1 e he).2.2.2
      · exact inner_fenced (M2 e he)
    · exact (C3 e he).2.2

/-- A record as the loops write it: what crosses a boundary is recorded for a row of a unit. -/
def Ev.bound : Ev → Prop
  | .call row _ _ _ _ mru _ _ => mru = true → ∃ u, row.unit? = some u
  | _ => True

/-- A reaction of a row of unit `u`: the row, and concentrations before and after. -/
def Ev.made (u : Nat) : Ev → List (Key × Rat × Rat)
  | .call row _ _ conc tal _ _ true => if row.unit? = some u then [(row, conc, tal)] else []
  | _ => []

/-- A record does not concern the composite of a unit. -/
def Ev.hushed (u : Nat) (e : Ev) : Prop := e.crossIn u = 0 ∧ e.crossOut u = 0 ∧ e.enters u = 0 ∧ e.leaves u = 0 ∧ e.made u = []

theorem fenced_bound {u : Nat} {e : Ev} (h : e.fenced u) : e.bound := by
  cases e with
  | call row _ _ _ _ mru _ _ => exact fun hm => ⟨u, h hm⟩
  | _ => trivial

theorem flow_bound (rx : Ent → Sol → Sol) (f : Flow) (s : St) : ∃ l, (flow rx f s).log = s.log ++ l ∧ ∀ e ∈ l, e.bound := by
  obtain ⟨l1, L1, C1⟩ := deposit_cross rx f { s with pulse := false }
  have hmid : Calm f (deposit rx f { s with pulse := false }) (satpref rx f (gwLoss f (sat rx f (qdf rx f (recharge rx f (canopy2 rx f
      (binLoop rx f 1 f.bins (satToUz rx f (ohoriz rx f (snow rx f (canopy1 rx f (gwInput rx f (deposit rx f { s with pulse := false }))))))))))))) :=
    (((((((((((gwInput_calm rx f _).trans (canopy1_calm rx f _)).trans (snow_calm rx f _)).trans (ohoriz_calm rx f _)).trans
      (satToUz_calm rx f _)).trans (binLoop_calm rx f _ _ _)).trans (canopy2_calm rx f _)).trans (recharge_calm rx f _)).trans
      (qdf_calm rx f _)).trans (sat_calm rx f _)).trans (gwLoss_calm f _)).trans (satpref_calm rx f _)
  obtain ⟨m, M1, M2⟩ := hmid
  obtain ⟨l3, L3, C3⟩ := hill_cross rx f (satpref rx f (gwLoss f (sat rx f (qdf rx f (recharge rx f (canopy2 rx f
      (binLoop rx f 1 f.bins (satToUz rx f (ohoriz rx f (snow rx f (canopy1 rx f (gwInput rx f (deposit rx f { s with pulse := false })))))))))))))
  refine ⟨l1 ++ m ++ l3, ?_, ?_⟩
  · unfold flow
    dsimp only
    rw [L3, M1, L1]
    simp only [List.append_assoc]
  · intro e he
    rcases List.mem_append.1 he with he | he
    · rcases List.mem_append.1 he with he | he
      · exact fenced_bound (C1 e he).2.2.2
      · exact fenced_bound (inner_fenced (u := f.unit) (M2 e he))
    · exact fenced_bound (C3 e he).2.2

theorem Flow.Row.unit {f : Flow} {k : Key} (h : f.Row k) {u : Nat} (hu : k.unit? = some u) : u = f.unit := by
  rcases h with rfl | rfl | rfl | ⟨i, h, rfl⟩ | ⟨j, h1, h2, rfl⟩ <;> simp_all [Key.unit?, Flow.key]

theorem proper_hushed {f : Flow} {e : Ev} (he : e.proper f) {u : Nat} (hu : u ≠ f.unit) : e.hushed u := by
  cases e with
  | call row metric _ _ _ mru _ react =>
    have hn : row.unit? ≠ some u := fun h => hu (he.1.unit h)
    cases react <;> simp [Ev.hushed, Ev.crossIn, Ev.crossOut, Ev.enters, Ev.leaves, Ev.made, hn]
  | set row _ _ _ => simp [Ev.hushed, Ev.crossIn, Ev.crossOut, Ev.enters, Ev.leaves, Ev.made]
  | final row _ => exact absurd he (by simp [Ev.proper])
  | enter v _ _ =>
    have hv : v = f.unit := he
    simp [Ev.hushed, Ev.crossIn, Ev.crossOut, Ev.enters, Ev.leaves, Ev.made, hv, hu]
  | leave v _ _ =>
    have hv : v = f.unit := he
    simp [Ev.hushed, Ev.crossIn, Ev.crossOut, Ev.enters, Ev.leaves, Ev.made, hv, hu]

end Verif.Transport
