import Verif.Lemmas.TransportCross
/-
What a unit records for the basin and not for itself, and the other way round.
-/
namespace Verif.Transport
open Verif.Reservoir (Vol Rows BinOut Par In sumOf)

/-- Input recorded for the basin less that recorded for units, by calls. -/
def Ev.rise : Ev → Rat
  | .call _ metric vol conc _ mru basin _ =>
    (if basin = true ∧ (metric = 0 ∨ metric = 2) then vol * conc else 0) - (if mru = true ∧ (metric = 0 ∨ metric = 2) then vol * conc else 0)
  | _ => 0

/-- Output recorded for the basin less that recorded for units, by calls. -/
def Ev.seep : Ev → Rat
  | .call _ metric vol conc tal mru basin react =>
    (if basin = true ∧ metric = 3 then vol * (if react = true then tal else conc) else 0) - (if mru = true ∧ metric = 3 then vol * conc else 0)
  | _ => 0

def recRise (l : List Ev) : Rat := (l.map Ev.rise).sum
def recSeep (l : List Ev) : Rat := (l.map Ev.seep).sum

/-- A call that concerns neither the boundary of the unit, nor that of the basin, nor the hillslope. -/
def Ev.still (f : Flow) : Ev → Prop
  | .call row _ _ _ _ mru basin _ => mru = false ∧ basin = false ∧ row ≠ f.key false 10 ∧ row ≠ .seg false f.srcInt
  | _ => True

def Still (f : Flow) (s s' : St) : Prop := ∃ m, s'.log = s.log ++ m ∧ ∀ e ∈ m, e.still f

theorem Still.refl {f : Flow} {s : St} : Still f s s := ⟨[], by simp, by simp⟩

theorem Still.trans {f : Flow} {s s1 s2 : St} (h : Still f s s1) (h' : Still f s1 s2) : Still f s s2 := by
  obtain ⟨m, h1, h2⟩ := h
  obtain ⟨m', h1', h2'⟩ := h'
  refine ⟨m ++ m', by rw [h1', h1, List.append_assoc], fun e he => ?_⟩
  rcases List.mem_append.1 he with he | he
  · exact h2 e he
  · exact h2' e he

theorem Still.note {f : Flow} {s s1 : St} (h : Still f s s1) (k : Key) (metric : Int) (v : Rat) (c : Bool)
    (hk : k.row ≠ f.key false 10 ∧ k.row ≠ .seg false f.srcInt) : Still f s (note k metric v false false c s1) := by
  refine h.trans ⟨_, rfl, fun e he => ?_⟩
  simp only [List.mem_cons, List.not_mem_nil, or_false] at he
  subst he; exact ⟨rfl, rfl, hk⟩

theorem Still.book {f : Flow} {s s1 : St} (h : Still f s s1) (k : Key) (v : Vol) : Still f s (book k v s1) := by
  refine h.trans ⟨_, rfl, fun e he => ?_⟩
  simp only [List.mem_cons, List.not_mem_nil, or_false] at he
  subst he; trivial

theorem Still.mix {f : Flow} {s s1 : St} (h : Still f s s1) (rx : Ent → Sol → Sol) (l : Parts) (c d : Key) (e : Ent) : Still f s (mix rx l c d e s1) := h
theorem Still.join {f : Flow} {s s1 : St} (h : Still f s s1) (rx : Ent → Sol → Sol) (g : Flow) (k : Nat) (v : Vol) : Still f s (join rx g k v s1) := h
theorem Still.evaporate {f : Flow} {s s1 : St} (h : Still f s s1) (rx : Ent → Sol → Sol) (c d : Key) (e : Ent) (v : Vol) :
    Still f s (evaporate rx c d e v s1) := h
theorem Still.pulse {f : Flow} {s s1 : St} (h : Still f s s1) (b : Bool) : Still f s { s1 with pulse := b } := h

theorem Still.cond {f : Flow} {s s1 s2 : St} {P : Prop} [Decidable P] (h1 : Still f s s1) (h2 : Still f s s2) : Still f s (if P then s1 else s2) := by
  split
  · exact h1
  · exact h2

macro "still_down" : tactic => `(tactic| repeat' first
  | with_reducible exact Still.refl
  | with_reducible refine Still.cond ?_ ?_
  | with_reducible refine Still.note ?_ _ _ _ _ ?_
  | with_reducible refine Still.book ?_ _ _
  | with_reducible refine Still.evaporate ?_ _ _ _ _ _
  | with_reducible refine Still.join ?_ _ _ _ _
  | with_reducible refine Still.mix ?_ _ _ _ _ _
  | with_reducible refine Still.pulse ?_ _
  | (simp [Flow.key, Key.row]; done))

theorem gwInput_still (rx : Ent → Sol → Sol) (f : Flow) (s : St) : Still f s (gwInput rx f s) := by
  unfold gwInput
  dsimp only
  split
  · refine ⟨_, rfl, fun e he => ?_⟩
    simp only [List.mem_cons, List.not_mem_nil, or_false] at he
    subst he; trivial
  · exact Still.refl

theorem gwLoss_still (f : Flow) (s : St) : Still f s (gwLoss f s) := by
  unfold gwLoss
  dsimp only
  split
  · refine ⟨_, rfl, fun e he => ?_⟩
    simp only [List.mem_cons, List.not_mem_nil, or_false] at he
    subst he; trivial
  · exact Still.refl

theorem canopy1_still (rx : Ent → Sol → Sol) (f : Flow) (s : St) : Still f s (canopy1 rx f s) := by
  unfold canopy1; dsimp only; still_down

theorem snow_still (rx : Ent → Sol → Sol) (f : Flow) (s : St) : Still f s (snow rx f s) := by
  unfold snow melt; dsimp only; still_down

theorem ohoriz_still (rx : Ent → Sol → Sol) (f : Flow) (s : St) : Still f s (ohoriz rx f s) := by
  unfold ohoriz; dsimp only; still_down

theorem satToUz_still (rx : Ent → Sol → Sol) (f : Flow) (s : St) : Still f s (satToUz rx f s) := by
  unfold satToUz; still_down

theorem binLoop_still (rx : Ent → Sol → Sol) (f : Flow) (bs : List BinOut) (j : Nat) (s : St) : Still f s (binLoop rx f j bs s) := by
  induction bs generalizing j s with
  | nil => exact Still.refl
  | cons b bs ih =>
    refine Still.trans ?_ (ih _ _)
    unfold binStep binIn
    dsimp only
    still_down

theorem canopy2_still (rx : Ent → Sol → Sol) (f : Flow) (s : St) : Still f s (canopy2 rx f s) := by
  unfold canopy2; dsimp only; still_down

theorem recharge_still (rx : Ent → Sol → Sol) (f : Flow) (s : St) : Still f s (recharge rx f s) := by
  unfold recharge; dsimp only; still_down

theorem qdf_still (rx : Ent → Sol → Sol) (f : Flow) (s : St) : Still f s (qdf rx f s) := by
  unfold qdf; dsimp only; still_down

theorem sat_still (rx : Ent → Sol → Sol) (f : Flow) (s : St) : Still f s (sat rx f s) := by
  unfold sat satIn; dsimp only; still_down

theorem satpref_still (rx : Ent → Sol → Sol) (f : Flow) (s : St) : Still f s (satpref rx f s) := by
  unfold satpref; dsimp only; still_down

/-- In the section of deposition what the basin loses and the unit does not is what is diverted from the stream. -/
theorem deposit_seep (rx : Ent → Sol → Sol) (f : Flow) (s : St) : ∃ m, (deposit rx f s).log = s.log ++ m ∧
    ∀ e ∈ m, e.rise = 0 ∧ e.seep = e.from (.seg false f.srcInt) ∧ e.from (f.key false 10) = 0 := by
  unfold deposit
  split
  · have hs : ∀ c ∈ sources f, (c.2.2.2.1 = c.2.2.2.2 ∧ c.1.row ≠ .seg false f.srcInt ∧ c.1.row ≠ f.key false 10) ∨
        (c.2.2.2.1 = false ∧ c.2.2.2.2 = true ∧ c.1 = .seg false f.srcInt ∧ c.2.2.1 = 3) := by
      intro c hc
      unfold sources at hc
      simp only [List.mem_append] at hc
      rcases hc with ((hc | hc) | hc) | hc <;> split at hc <;> simp only [List.mem_cons, List.not_mem_nil, or_false] at hc <;> subst hc
      · exact Or.inl ⟨rfl, by simp [Key.row], by simp [Key.row, Flow.key]⟩
      · exact Or.inl ⟨rfl, by simp [Key.row], by simp [Key.row, Flow.key]⟩
      · exact Or.inl ⟨rfl, by simp [Key.row, Flow.key], by simp [Key.row, Flow.key]⟩
      · exact Or.inr ⟨rfl, rfl, rfl, rfl⟩
    have key : ∀ (l : List (Key × Rat × Int × Bool × Bool)), (∀ c ∈ l, (c.2.2.2.1 = c.2.2.2.2 ∧ c.1.row ≠ .seg false f.srcInt ∧ c.1.row ≠ f.key false 10) ∨
        (c.2.2.2.1 = false ∧ c.2.2.2.2 = true ∧ c.1 = .seg false f.srcInt ∧ c.2.2.1 = 3)) → ∀ s : St,
        ∃ m, (l.foldl (fun s c => readOff rx c.1 c.2.2.1 c.2.1 c.2.2.2.1 c.2.2.2.2 s) s).log = s.log ++ m ∧
          ∀ e ∈ m, e.rise = 0 ∧ e.seep = e.from (.seg false f.srcInt) ∧ e.from (f.key false 10) = 0 := by
      intro l
      induction l with
      | nil => intro _ s; exact ⟨[], by simp, by simp⟩
      | cons c l ih =>
        intro hl s
        obtain ⟨m, h1, h2⟩ := ih (fun c hc => hl c (List.mem_cons_of_mem _ hc)) (readOff rx c.1 c.2.2.1 c.2.1 c.2.2.2.1 c.2.2.2.2 s)
        refine ⟨_ :: m, by rw [List.foldl_cons, h1]; simp only [readOff, note, List.append_assoc, List.singleton_append]; rfl, ?_⟩
        intro e he
        rcases List.mem_cons.1 he with rfl | he
        · rcases hl c List.mem_cons_self with ⟨a1, a2, a3⟩ | ⟨a1, a2, a3, a4⟩
          · simp [Ev.rise, Ev.seep, Ev.from, a1, Ne.symm a2, Ne.symm a3]
          · simp [Ev.rise, Ev.seep, Ev.from, a1, a2, a3, a4, Key.row, Flow.key]
        · exact h2 e he
    obtain ⟨m, h1, h2⟩ := key (sources f) hs s
    dsimp only
    refine ⟨m ++ [_], by simp only [note]; rw [show ∀ s : St, (mix rx (checked ((sources f).map fun c => (c.1, c.2.1 / f.dep)))
      (f.key false 11) (f.key false 11) .atm s).log = s.log from fun _ => rfl, h1, List.append_assoc], ?_⟩
    intro e he
    rcases List.mem_append.1 he with he | he
    · exact h2 e he
    · rw [List.mem_singleton.1 he]
      simp [Ev.rise, Ev.seep, Ev.from, Key.row, Flow.key]
  · exact ⟨[], by simp, by simp⟩

theorem hill_seep (rx : Ent → Sol → Sol) (f : Flow) (s : St) : ∃ m, (hill rx f s).log = s.log ++ m ∧
    ∀ e ∈ m, e.rise = 0 ∧ e.seep = - e.from (f.key false 10) ∧ e.from (.seg false f.srcInt) = 0 := by
  unfold hill
  dsimp only
  split
  · refine ⟨_, rfl, fun e he => ?_⟩
    simp only [List.mem_cons, List.not_mem_nil, or_false] at he
    subst he
    simp [Ev.rise, Ev.seep, Ev.from, Key.row, Flow.key]
  · exact ⟨[], by simp, by simp⟩

theorem still_seep {f : Flow} {e : Ev} (h : e.still f) :
    e.rise = 0 ∧ e.seep = 0 ∧ e.from (f.key false 10) = 0 ∧ e.from (.seg false f.srcInt) = 0 := by
  cases e with
  | call row _ _ _ _ _ _ react =>
    obtain ⟨a, b, c, d⟩ := h
    subst a b
    simp [Ev.rise, Ev.seep, Ev.from, Ne.symm c, Ne.symm d]
  | _ => simp [Ev.rise, Ev.seep, Ev.from]

/-- What the basin loses with a unit, and the unit does not: what is diverted; and the other way round: what goes to the stream. -/
theorem flow_seep {rx : Ent → Sol → Sol} (hd : Dry rx) {f : Flow} (ho : f.Ok) (hr : f.Regular) (s : St) (hF : Full s.sol) :
    ∃ l, (flow rx f s).log = s.log ++ l ∧ recRise l = 0 ∧
      recSeep l = f.r.mru.div * at_ s (.seg false f.srcInt) - f.r.hill.out * at_ (flow rx f s) (f.key true 10) := by
  obtain ⟨q, Q1, Q2⟩ := flow_recorded hd ho hr s hF
  have hhill := Q2.hill
  have hdiv := Q2.diverted
  obtain ⟨l1, L1, C1⟩ := deposit_seep rx f { s with pulse := false }
  have hmid : Still f (deposit rx f { s with pulse := false }) (satpref rx f (gwLoss f (sat rx f (qdf rx f (recharge rx f (canopy2 rx f
      (binLoop rx f 1 f.bins (satToUz rx f (ohoriz rx f (snow rx f (canopy1 rx f (gwInput rx f (deposit rx f { s with pulse := false }))))))))))))) :=
    (((((((((((gwInput_still rx f _).trans (canopy1_still rx f _)).trans (snow_still rx f _)).trans (ohoriz_still rx f _)).trans
      (satToUz_still rx f _)).trans (binLoop_still rx f _ _ _)).trans (canopy2_still rx f _)).trans (recharge_still rx f _)).trans
      (qdf_still rx f _)).trans (sat_still rx f _)).trans (gwLoss_still f _)).trans (satpref_still rx f _)
  obtain ⟨m, M1, M2⟩ := hmid
  obtain ⟨l3, L3, C3⟩ := hill_seep rx f (satpref rx f (gwLoss f (sat rx f (qdf rx f (recharge rx f (canopy2 rx f
      (binLoop rx f 1 f.bins (satToUz rx f (ohoriz rx f (snow rx f (canopy1 rx f (gwInput rx f (deposit rx f { s with pulse := false })))))))))))))
  have hlog : (flow rx f s).log = s.log ++ (l1 ++ m ++ l3) := by
    unfold flow
    dsimp only
    rw [L3, M1, L1]
    simp only [List.append_assoc]
  have hq : q = l1 ++ m ++ l3 := List.append_cancel_left (Q1.symm.trans hlog)
  have hall : ∀ e ∈ l1 ++ m ++ l3, e.rise = 0 ∧ e.seep = e.from (.seg false f.srcInt) - e.from (f.key false 10) := by
    intro e he
    rcases List.mem_append.1 he with he | he
    · rcases List.mem_append.1 he with he | he
      · obtain ⟨a, b, c⟩ := C1 e he
        exact ⟨a, by rw [b, c]; ring⟩
      · obtain ⟨a, b, c, d⟩ := still_seep (M2 e he)
        exact ⟨a, by rw [b, c, d]; ring⟩
    · obtain ⟨a, b, c⟩ := C3 e he
      exact ⟨a, by rw [b, c]; ring⟩
  refine ⟨l1 ++ m ++ l3, hlog, ?_, ?_⟩
  · unfold recRise
    rw [List.map_congr_left fun e he => (hall e he).1]
    simp
  · rw [hq] at hhill hdiv
    rw [← hdiv, ← hhill]
    unfold recSeep recOut
    clear hhill hdiv hq Q1 Q2 hlog L3 M1 L1 C1 C3 M2
    generalize l1 ++ m ++ l3 = l at hall
    induction l with
    | nil => simp
    | cons e l ih =>
      simp only [List.map_cons, List.sum_cons]
      rw [ih fun e he => hall e (List.mem_cons_of_mem _ he), (hall e List.mem_cons_self).2]
      ring

end Verif.Transport
