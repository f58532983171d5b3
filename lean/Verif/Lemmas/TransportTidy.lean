import Verif.Lemmas.TransportRecorded
/-
Volumes are recorded before reactions.
-/
namespace Verif.Transport
open Verif.Reservoir (Vol Rows BinOut Par In sumOf fall inch2m)

/-- The volumes of a row are recorded before its reaction. -/
def Early (k : Key) (l : List Ev) : Prop :=
  ∀ l1 e l2, l = l1 ++ e :: l2 → e.reaction k ≠ [] → ∃ e' ∈ l1, e'.volumes k ≠ []

theorem early_nil (k : Key) : Early k [] := by
  intro l1 e l2 h
  exact absurd h (by simp)

theorem Early.append {k : Key} {l l' : List Ev} (h : Early k l) (h' : Early k l') : Early k (l ++ l') := by
  intro l1 e l2 heq hr
  rcases List.append_eq_append_iff.1 heq with ⟨a, h1, h2⟩ | ⟨a, h1, h2⟩
  · obtain ⟨e', m, hv⟩ := h' a e l2 h2 hr
    exact ⟨e', h1 ▸ List.mem_append_right _ m, hv⟩
  · cases a with
    | nil =>
      obtain ⟨e', m, hv⟩ := h' [] e l2 (by simpa using h2.symm) hr
      exact absurd m (by simp)
    | cons x a =>
      simp only [List.cons_append, List.cons.injEq] at h2
      obtain ⟨rfl, rfl⟩ := h2
      exact h l1 e a h1 hr

theorem early_one {k : Key} {e : Ev} (h : e.reaction k = []) : Early k [e] := by
  intro l1 e' l2 heq hr
  have : e' ∈ [e] := heq ▸ List.mem_append_right _ List.mem_cons_self
  simp only [List.mem_cons, List.not_mem_nil, or_false] at this
  exact absurd (this ▸ h) hr

theorem early_set {k : Key} {x y z : Rat} {l : List Ev} : Early k (.set k x y z :: l) := by
  intro l1 e l2 heq hr
  cases l1 with
  | nil =>
    simp only [List.nil_append, List.cons.injEq] at heq
    exact absurd (by rw [← heq.1]; rfl) hr
  | cons a l1 =>
    simp only [List.cons_append, List.cons.injEq] at heq
    exact ⟨a, List.mem_cons_self, by rw [← heq.1]; simp [Ev.volumes]⟩

/-- The rows a unit writes. -/
def Flow.Row (f : Flow) (k : Key) : Prop :=
  k = .data 1 ∨ k = .data (f.srcExt + 1) ∨ k = .seg false f.srcInt ∨ (∃ i ∈ [1, 2, 4, 7, 8, 9, 10, 11, 12, 13], k = f.key false i) ∨
    ∃ j, 1 ≤ j ∧ j ≤ f.bins.length ∧ k = .bin false f.unit j

/-- Rows of reservoirs that react. -/
def Key.holds : Key → Prop
  | .hill t k _ => t = false ∧ k ∈ [1, 2, 4, 7, 8, 9]
  | .bin t _ _ => t = false
  | _ => False

/-- Calls are of the kinds `update_chem` knows, for rows of the unit. -/
def Ev.proper (f : Flow) : Ev → Prop
  | .call row metric _ _ _ mru basin react => f.Row row ∧
    if react then (metric = 3 ∨ metric = -1 ∧ ∀ u j, row ≠ .bin false u j) ∧ mru = false ∧ basin = false ∧ row.holds
    else metric = 0 ∨ metric = 2 ∨ metric = 3
  | .set row _ _ _ => f.Row row
  | .final _ _ => False
  | .enter u _ _ => u = f.unit
  | .leave u _ _ => u = f.unit

/-- What has been recorded is in order, except for the row `K`. -/
def Tidy (f : Flow) (K : Option Key) (s s' : St) : Prop :=
  ∃ m, s'.log = s.log ++ m ∧ (∀ k, some k ≠ K → Early k m) ∧ ∀ e ∈ m, e.proper f

theorem Tidy.refl {f : Flow} {K : Option Key} {s : St} : Tidy f K s s := ⟨[], by simp, fun k _ => early_nil k, by simp⟩

theorem Tidy.trans {f : Flow} {K : Option Key} {s s1 s2 : St} (h : Tidy f K s s1) (h' : Tidy f K s1 s2) : Tidy f K s s2 := by
  obtain ⟨m, h1, h2, h3⟩ := h
  obtain ⟨m', h1', h2', h3'⟩ := h'
  refine ⟨m ++ m', by rw [h1', h1, List.append_assoc], fun k hk => (h2 k hk).append (h2' k hk), fun e he => ?_⟩
  rcases List.mem_append.1 he with he | he
  · exact h3 e he
  · exact h3' e he

theorem Tidy.weak {f : Flow} {K : Option Key} {s s1 : St} (h : Tidy f none s s1) : Tidy f K s s1 := by
  obtain ⟨m, h1, h2, h3⟩ := h
  exact ⟨m, h1, fun k _ => h2 k (by simp), h3⟩

theorem Tidy.mix {f : Flow} {K : Option Key} {s s1 : St} (h : Tidy f K s s1) (rx : Ent → Sol → Sol) (l : Parts) (c d : Key) (e : Ent) :
    Tidy f K s (mix rx l c d e s1) := h

theorem Tidy.join {f : Flow} {K : Option Key} {s s1 : St} (h : Tidy f K s s1) (rx : Ent → Sol → Sol) (g : Flow) (k : Nat) (v : Vol) :
    Tidy f K s (join rx g k v s1) := h

theorem Tidy.evaporate {f : Flow} {K : Option Key} {s s1 : St} (h : Tidy f K s s1) (rx : Ent → Sol → Sol) (c d : Key) (e : Ent) (v : Vol) :
    Tidy f K s (evaporate rx c d e v s1) := h

theorem Tidy.pulse {f : Flow} {K : Option Key} {s s1 : St} (h : Tidy f K s s1) (b : Bool) : Tidy f K s { s1 with pulse := b } := h

/-- An input or an output. -/
theorem Tidy.note {f : Flow} {K : Option Key} {s s1 : St} (h : Tidy f K s s1) {k : Key} {metric : Int} {v : Rat} {a b : Bool}
    (hk : f.Row k.row) (hm : metric = 0 ∨ metric = 2 ∨ metric = 3) : Tidy f K s (note k metric v a b false s1) := by
  refine h.trans ⟨_, rfl, fun k' _ => early_one rfl, fun e he => ?_⟩
  simp only [List.mem_cons, List.not_mem_nil, or_false] at he
  subst he
  exact ⟨hk, hm⟩

/-- The reaction of the row. -/
theorem Tidy.last {f : Flow} {k : Key} {s s1 : St} (h : Tidy f (some k) s s1) {k' : Key} {metric : Int} {v : Rat} (hk : k'.row = k) (hr : f.Row k)
    (hh : k.holds) (hm : metric = 3 ∨ metric = -1 ∧ ∀ u j, k ≠ .bin false u j) : Tidy f (some k) s (Transport.note k' metric v false false true s1) := by
  subst hk
  refine h.trans ⟨_, rfl, fun k2 h2 => early_one ?_, fun e he => ?_⟩
  · have : ¬ k2 = k'.row := fun hh => h2 (by rw [hh])
    simp [Ev.reaction, this]
  · simp only [List.mem_cons, List.not_mem_nil, or_false] at he
    subst he
    exact ⟨hr, hm, rfl, rfl, hh⟩

theorem Tidy.book {f : Flow} {K : Key} {v : Vol} {s s' : St} (hr : f.Row K.row) (h : Tidy f (some K.row) (book K v s) s') : Tidy f none s s' := by
  obtain ⟨m, h1, h2, h3⟩ := h
  refine ⟨.set K.row v.init v.et v.fin :: m, by rw [h1]; simp [Transport.book], fun k _ => ?_, fun e he => ?_⟩
  · by_cases hk : k = K.row
    · subst hk; exact early_set
    · exact (early_one (k := k) (e := .set K.row v.init v.et v.fin) rfl).append (h2 k (by simpa using hk))
  · rcases List.mem_cons.1 he with rfl | he
    · exact hr
    · exact h3 e he

theorem Tidy.readOff {f : Flow} {s s1 : St} (h : Tidy f none s s1) (rx : Ent → Sol → Sol) (k : Key) (metric : Int) (vol : Rat) (a b : Bool)
    (hk : f.Row k.row) (hm : metric = 0 ∨ metric = 2 ∨ metric = 3) : Tidy f none s (readOff rx k metric vol a b s1) :=
  (h.mix rx _ _ _ _).note hk hm

theorem Flow.Row.hill (f : Flow) (t : Bool) {i : Nat} (h : i ∈ [1, 2, 4, 7, 8, 9, 10, 11, 12, 13]) : f.Row (f.key t i).row :=
  Or.inr (Or.inr (Or.inr (Or.inl ⟨i, h, rfl⟩)))

theorem sources_rows (f : Flow) : ∀ c ∈ sources f, f.Row c.1.row ∧ (c.2.2.1 = 0 ∨ c.2.2.1 = 2 ∨ c.2.2.1 = 3) := by
  intro c hc
  refine ⟨?_, by rw [(sources_row f c hc).2]; split <;> simp⟩
  unfold sources at hc
  simp only [List.mem_append] at hc
  rcases hc with ((hc | hc) | hc) | hc <;> split at hc <;> simp only [List.mem_cons, List.not_mem_nil, or_false] at hc
  · subst hc; exact Or.inl rfl
  · subst hc; exact Or.inr (Or.inl rfl)
  · subst hc; exact Flow.Row.hill f false (by simp)
  · subst hc; exact Or.inr (Or.inr (Or.inl rfl))

theorem deposit_tidy (rx : Ent → Sol → Sol) (f : Flow) (s : St) : Tidy f none s (deposit rx f s) := by
  unfold deposit
  split
  · refine Tidy.note (Tidy.mix ?_ rx _ _ _ _) (Flow.Row.hill f false (by simp)) (by simp)
    have hs := sources_rows f
    generalize sources f = l at hs
    have : ∀ s1, Tidy f none s s1 → Tidy f none s (l.foldl (fun s c => readOff rx c.1 c.2.2.1 c.2.1 c.2.2.2.1 c.2.2.2.2 s) s1) := by
      induction l with
      | nil => intro s1 h; exact h
      | cons c l ih =>
        intro s1 h
        have := hs c List.mem_cons_self
        exact ih (fun c hc => hs c (List.mem_cons_of_mem _ hc)) _ (h.readOff rx _ _ _ _ _ this.1 this.2)
    exact this s Tidy.refl
  · exact Tidy.refl

theorem gwInput_tidy (rx : Ent → Sol → Sol) (f : Flow) (s : St) : Tidy f none s (gwInput rx f s) := by
  unfold gwInput
  dsimp only
  split
  · refine ⟨_, rfl, fun k' _ => early_one rfl, fun e he => ?_⟩
    simp only [List.mem_cons, List.not_mem_nil, or_false] at he
    subst he
    rfl
  · exact Tidy.refl

theorem gwLoss_tidy (f : Flow) (s : St) : Tidy f none s (gwLoss f s) := by
  unfold gwLoss
  dsimp only
  split
  · refine ⟨_, rfl, fun k' _ => early_one rfl, fun e he => ?_⟩
    simp only [List.mem_cons, List.not_mem_nil, or_false] at he
    subst he
    rfl
  · exact Tidy.refl

theorem Tidy.cond {f : Flow} {K : Option Key} {s s1 s2 : St} {P : Prop} [Decidable P] (h1 : P → Tidy f K s s1) (h2 : ¬ P → Tidy f K s s2) :
    Tidy f K s (if P then s1 else s2) := by
  split
  · exact h1 ‹_›
  · exact h2 ‹_›

macro "tidy_up" : tactic => `(tactic| repeat' first
  | with_reducible exact Tidy.refl
  | with_reducible refine Tidy.cond (fun _ => ?_) (fun _ => ?_)
  | with_reducible refine Tidy.last ?_ ?_ ?_ ?_ ?_
  | with_reducible refine Tidy.note ?_ ?_ ?_
  | with_reducible refine Tidy.evaporate ?_ _ _ _ _ _
  | with_reducible refine Tidy.join ?_ _ _ _ _
  | with_reducible refine Tidy.mix ?_ _ _ _ _ _
  | with_reducible refine Tidy.pulse ?_ _
  | with_reducible rfl
  | exact Flow.Row.hill _ _ (by simp)
  | (simp [Flow.key, Key.row, Key.holds]; done))

theorem canopy1_tidy (rx : Ent → Sol → Sol) (f : Flow) (s : St) : Tidy f none s (canopy1 rx f s) := by
  unfold canopy1
  refine Tidy.book (K := f.key true 1) (v := f.r.can) (Flow.Row.hill f _ (by simp)) ?_
  dsimp only
  tidy_up

theorem snow_tidy (rx : Ent → Sol → Sol) (f : Flow) (s : St) : Tidy f none s (snow rx f s) := by
  unfold snow
  refine Tidy.book (K := f.key true 2) (v := f.r.snow) (Flow.Row.hill f _ (by simp)) ?_
  unfold melt
  dsimp only
  tidy_up

theorem ohoriz_tidy (rx : Ent → Sol → Sol) (f : Flow) (s : St) : Tidy f none s (ohoriz rx f s) := by
  unfold ohoriz
  refine Tidy.book (K := f.key true 4) (v := f.r.ohoriz) (Flow.Row.hill f _ (by simp)) ?_
  dsimp only
  tidy_up

theorem satToUz_tidy (rx : Ent → Sol → Sol) (f : Flow) (s : St) : Tidy f none s (satToUz rx f s) := by
  unfold satToUz
  tidy_up

theorem binStep_tidy (rx : Ent → Sol → Sol) (f : Flow) (j : Nat) (v : Vol) (s : St) (h1 : 1 ≤ j) (h2 : j ≤ f.bins.length) :
    Tidy f none s (binStep rx f j v s) := by
  have hr : f.Row (.bin false f.unit j) := Or.inr (Or.inr (Or.inr (Or.inr ⟨j, h1, h2, rfl⟩)))
  unfold binStep binIn
  refine Tidy.book (K := .bin false f.unit j) (v := v) hr ?_
  dsimp only
  repeat' first
  | exact hr
  | tidy_up

theorem binLoop_tidy (rx : Ent → Sol → Sol) (f : Flow) (bs : List BinOut) (j : Nat) (s : St) (h1 : 1 ≤ j)
    (h2 : j + bs.length ≤ f.bins.length + 1) : Tidy f none s (binLoop rx f j bs s) := by
  induction bs generalizing j s with
  | nil => exact Tidy.refl
  | cons b bs ih =>
    rw [List.length_cons] at h2
    exact (binStep_tidy rx f j b.vol s h1 (by omega)).trans (ih _ _ (by omega) (by omega))

theorem canopy2_tidy (rx : Ent → Sol → Sol) (f : Flow) (s : St) : Tidy f none s (canopy2 rx f s) := by
  unfold canopy2
  refine Tidy.book (K := f.key true 1) (v := f.r.can) (Flow.Row.hill f _ (by simp)) ?_
  dsimp only
  tidy_up

theorem recharge_tidy (rx : Ent → Sol → Sol) (f : Flow) (s : St) : Tidy f none s (recharge rx f s) := by
  unfold recharge
  tidy_up

theorem qdf_tidy (rx : Ent → Sol → Sol) (f : Flow) (s : St) : Tidy f none s (qdf rx f s) := by
  unfold qdf
  refine Tidy.book (K := f.key true 7) (v := f.r.qdf) (Flow.Row.hill f _ (by simp)) ?_
  dsimp only
  tidy_up

theorem sat_tidy (rx : Ent → Sol → Sol) (f : Flow) (s : St) : Tidy f none s (sat rx f s) := by
  unfold sat satIn
  refine Tidy.book (K := f.key true 8) (v := f.r.sat) (Flow.Row.hill f _ (by simp)) ?_
  dsimp only
  tidy_up

theorem satpref_tidy (rx : Ent → Sol → Sol) (f : Flow) (s : St) : Tidy f none s (satpref rx f s) := by
  unfold satpref
  refine Tidy.book (K := f.key true 9) (v := f.r.satpref) (Flow.Row.hill f _ (by simp)) ?_
  dsimp only
  tidy_up

theorem hill_tidy (rx : Ent → Sol → Sol) (f : Flow) (s : St) : Tidy f none s (hill rx f s) := by
  unfold hill
  tidy_up

theorem flow_tidy (rx : Ent → Sol → Sol) (f : Flow) (s : St) : Tidy f none s (flow rx f s) := by
  unfold flow
  dsimp only
  have h0 : Tidy f none s { s with pulse := false } := Tidy.refl.pulse false
  exact ((((((((((((((h0.trans (deposit_tidy rx f _)).trans (gwInput_tidy rx f _)).trans (canopy1_tidy rx f _)).trans
    (snow_tidy rx f _)).trans (ohoriz_tidy rx f _)).trans (satToUz_tidy rx f _)).trans (binLoop_tidy rx f _ _ _ (by omega) (by omega))).trans
    (canopy2_tidy rx f _)).trans (recharge_tidy rx f _)).trans (qdf_tidy rx f _)).trans (sat_tidy rx f _)).trans
    (gwLoss_tidy f _)).trans (satpref_tidy rx f _)).trans (hill_tidy rx f _))

end Verif.Transport
