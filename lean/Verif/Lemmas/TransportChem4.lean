import Verif.Lemmas.TransportChem3
import Verif.Lemmas.TransportBasin
import Verif.Lemmas.TransportCross
/-
What a row shows after a list of records.
-/
namespace Verif.Transport
open Verif.Reservoir (Vol Rows BinOut Par In sumOf)
open Verif.Chem (Ctx Call Event Table Same)
open Verif.SolnNum (Dims)

/-! ### Records that do not concern a row -/

/-- A record does not concern a row. -/
def Quiet (k : Key) (l : List Ev) : Prop := ∀ e ∈ l, e.into k = 0 ∧ e.from k = 0 ∧ e.reaction k = [] ∧ e.volumes k = []

theorem Quiet.recs {k : Key} {l : List Ev} (h : Quiet k l) : recIn k l = 0 ∧ recOut k l = 0 ∧ recEnd k l = [] ∧ recVol k l = [] := by
  induction l with
  | nil => simp [recIn, recOut, recEnd, recVol]
  | cons e l ih =>
    obtain ⟨a, b, c, d⟩ := h e List.mem_cons_self
    obtain ⟨a', b', c', d'⟩ := ih fun e he => h e (List.mem_cons_of_mem _ he)
    simp only [recIn, recOut, recEnd, recVol] at *
    simp [a, b, c, d, a', b', c', d']

theorem Quiet.early {k : Key} {l : List Ev} (h : Quiet k l) : Early k l := by
  intro l1 e l2 heq hr
  exact absurd (h e (heq ▸ List.mem_append_right _ List.mem_cons_self)).2.2.1 hr

theorem Quiet.append {k : Key} {l l' : List Ev} (h : Quiet k l) (h' : Quiet k l') : Quiet k (l ++ l') := by
  intro e he
  rcases List.mem_append.1 he with he | he
  · exact h e he
  · exact h' e he

theorem rec_append (k : Key) (l l' : List Ev) : recIn k (l ++ l') = recIn k l + recIn k l' ∧ recOut k (l ++ l') = recOut k l + recOut k l' ∧
    recEnd k (l ++ l') = recEnd k l ++ recEnd k l' ∧ recVol k (l ++ l') = recVol k l ++ recVol k l' := by
  simp [recIn, recOut, recEnd, recVol]

theorem rec_around {k : Key} {p l q : List Ev} (hp : Quiet k p) (hq : Quiet k q) : recIn k (p ++ l ++ q) = recIn k l ∧
    recOut k (p ++ l ++ q) = recOut k l ∧ recEnd k (p ++ l ++ q) = recEnd k l ∧ recVol k (p ++ l ++ q) = recVol k l := by
  obtain ⟨a, b, c, d⟩ := hp.recs
  obtain ⟨a', b', c', d'⟩ := hq.recs
  obtain ⟨e1, e2, e3, e4⟩ := rec_append k (p ++ l) q
  obtain ⟨f1, f2, f3, f4⟩ := rec_append k p l
  rw [e1, e2, e3, e4, f1, f2, f3, f4, a, b, c, d, a', b', c', d']
  simp

theorem Booked.around {v : Vol} {pre c0 c1 src : Rat} {k : Key} {p l q : List Ev} (h : Booked v pre c0 c1 src k l) (hp : Quiet k p)
    (hq : Quiet k q) : Booked v pre c0 c1 src k (p ++ l ++ q) := by
  obtain ⟨a, b, c, d⟩ := rec_around (l := l) hp hq
  obtain ⟨h1, h2, h3⟩ := h
  exact ⟨by rw [d]; exact h1, by rw [a]; exact h2, by rw [a, b, c]; exact h3⟩

/-! ### What a row shows -/

theorem shown_of {d : Dims} (ok : d.Ok) {n : Nat} {z : Nat → Ctx × Call} (hz : ∀ i, Known n (z i).1) {k : Key} (hk : k.inUnit)
    (hw : k.Within d) {v : Vol} {pre c0 c1 src : Rat} {l : List Ev} (hb : Booked v pre c0 c1 src k l) (he : Early k l)
    (hl : ∀ e ∈ l, e.sound d) {u t : Table} (hu : Blank n u) (i : Nat)
    (h : Chem.run (heard d n z i l) u = some t) : Shown n (place d k) v pre c0 c1 src u t := by
  obtain ⟨f1, f2, f3, f4, -⟩ := heard_flows ok hz hk hw l hl i u t h
  obtain ⟨v1, v2⟩ := heard_vols ok hz hk hw l hl hb.vols.2 i u t h (Or.inl hb.vols.1)
  rw [hu _ 2 (by simp), zero_add] at f2
  rw [hu _ 3 (by simp), zero_add] at f3
  rw [hb.inp] at f2
  rcases hb.rest with ⟨c, a, r1, r2, r3, r4⟩ | ⟨r1, r2, hs, r3, r4, r5⟩
  · obtain ⟨e4, e5⟩ := heard_react ok hz hk hw l hl hb.vols.2 r1 i u t h (Or.inl he)
    dsimp only at e4 e5
    have ec : v.fin * a = v.fin * c1 := by
      rcases eq_or_ne v.fin 0 with h0 | h0
      · rw [h0]; ring
      · rw [r4 h0]
    have e5' : t (.res (place d k)) (.mol n 5) = 1000 * (v.fin * c1) := by rw [e5, ec]
    have e4' : t (.res (place d k)) (.mol n 4) = 1000 * (v.fin * (c1 - c)) := by rw [e4, mul_sub, ec, ← mul_sub]
    refine ⟨v2, v1, f1, f2, e5', ⟨c, by rw [f3, r2], e4'⟩, fun h0 => ?_⟩
    rw [hb.inp] at r3
    rw [e5', f3, f1, h0, f2, e4']
    linarith
  · obtain ⟨g4, g5⟩ := f4 r1
    rw [hu _ 4 (by simp)] at g4
    rw [hu _ 5 (by simp)] at g5
    refine ⟨v2, v1, f1, f2, by rw [g5, r5]; ring, ⟨c0, by rw [f3, r2, r4]; ring, by rw [g4, r5]; ring⟩, fun h0 => ?_⟩
    rw [g5, f3, f1, h0, f2, g4, r2, r3, hs]
    ring

/-! ### Records of streams -/

/-- A record of the loop over segments. -/
def Ev.streamy (N : Nat) : Ev → Prop
  | .call row metric _ _ _ mru _ react =>
    ∃ j, j ≤ N ∧ row = .seg false j ∧ (if react then metric = 3 ∧ 1 ≤ j else metric = 2 ∨ metric = 3) ∧ mru = false
  | .final row _ => ∃ j, j ≤ N ∧ row = .seg false j
  | _ => False

theorem segStep_log (rx : Ent → Sol → Sol) (h : Nat) (h1 : 1 ≤ h) (g : Seg) (s : St) :
    ∃ m, (segStep rx h g s).log = s.log ++ m ∧ ∀ e ∈ m, e.streamy h := by
  have hf : (Ev.final (.seg false h) g.own).streamy h := ⟨h, le_rfl, rfl⟩
  have hc : ∀ metric vol c t b, metric = 2 ∨ metric = 3 → (Ev.call (.seg false h) metric vol c t false b false).streamy h :=
    fun _ _ _ _ _ hm => ⟨h, le_rfl, rfl, hm, rfl⟩
  have hr : ∀ vol c t b, (Ev.call (.seg false h) 3 vol c t false b true).streamy h := fun _ _ _ _ => ⟨h, le_rfl, rfl, ⟨rfl, h1⟩, rfl⟩
  have hn : ∀ vol c t b, (Ev.call (.seg false (h - 1)) 2 vol c t false b false).streamy h :=
    fun _ _ _ _ => ⟨h - 1, by omega, rfl, Or.inl rfl, rfl⟩
  have hi : ∀ s : St, ∃ m, (segIn rx h g s).log = s.log ++ m ∧ ∀ e ∈ m, e.streamy h := by
    intro s
    unfold segIn
    dsimp only
    split
    · refine ⟨_, rfl, ?_⟩
      intro e he
      simp only [List.mem_cons, List.not_mem_nil, or_false] at he
      subst he
      exact hc _ _ _ _ _ (Or.inl rfl)
    · exact ⟨[], by simp, by simp⟩
  obtain ⟨m, e1, e2⟩ := hi { s with log := s.log ++ [.final (.seg false h) g.own] }
  have step : ∀ (w w' : St) (e : Ev), (∃ m, w.log = s.log ++ m ∧ ∀ e ∈ m, e.streamy h) → w'.log = w.log ++ [e] → e.streamy h →
      ∃ m, w'.log = s.log ++ m ∧ ∀ e ∈ m, e.streamy h := by
    rintro w w' e ⟨m, a, b⟩ hw he
    refine ⟨m ++ [e], by rw [hw, a, List.append_assoc], ?_⟩
    intro x hx
    rcases List.mem_append.1 hx with hx | hx
    · exact b x hx
    · rw [List.mem_singleton.1 hx]; exact he
  have h0 : ∃ m, (segIn rx h g { s with log := s.log ++ [.final (.seg false h) g.own] }).log = s.log ++ m ∧ ∀ e ∈ m, e.streamy h := by
    refine ⟨.final (.seg false h) g.own :: m, by rw [e1]; simp, ?_⟩
    intro e he
    rcases List.mem_cons.1 he with rfl | he
    · exact hf
    · exact e2 e he
  unfold segStep
  dsimp only
  generalize segIn rx h g { s with log := s.log ++ [.final (.seg false h) g.own] } = w at h0
  split
  · have h2 : ∀ l b, ∃ m, (note (.seg false h) 3 g.down false b true (note (.seg false h) 3 (g.taken + g.loss) false true false
        (mix rx l (.seg false h) (.seg true (h - 1)) (.res (.seg false h)) w))).log = s.log ++ m ∧ ∀ e ∈ m, e.streamy h := fun l b =>
      step _ _ _ (step _ (note (.seg false h) 3 (g.taken + g.loss) false true false
        (mix rx l (.seg false h) (.seg true (h - 1)) (.res (.seg false h)) w)) _ h0 rfl (hc _ _ _ _ _ (Or.inr rfl))) rfl (hr _ _ _ _)
    split
    · exact step _ _ _ (h2 _ _) rfl (hn _ _ _ _)
    · exact h2 _ _
  · exact h0

theorem Ev.streamy.mono {N M : Nat} (h : N ≤ M) {e : Ev} (he : e.streamy N) : e.streamy M := by
  cases e with
  | call row metric _ _ _ _ _ react => obtain ⟨j, a, b⟩ := he; exact ⟨j, a.trans h, b⟩
  | final row _ => obtain ⟨j, a, b⟩ := he; exact ⟨j, a.trans h, b⟩
  | _ => exact he

theorem segLoop_log (rx : Ent → Sol → Sol) (gs : List Seg) (h : Nat) (h1 : 1 ≤ h) (s : St) :
    ∃ m, (segLoop rx h gs s).log = s.log ++ m ∧ ∀ e ∈ m, e.streamy (h + gs.length - 1) := by
  induction gs generalizing h with
  | nil => exact ⟨[], by simp [segLoop], by simp⟩
  | cons g gs ih =>
    obtain ⟨m, e1, e2⟩ := ih (h + 1) (by omega)
    obtain ⟨m', f1, f2⟩ := segStep_log rx h h1 g (segLoop rx (h + 1) gs s)
    refine ⟨m ++ m', by rw [segLoop, f1, e1, List.append_assoc], ?_⟩
    intro e he
    rw [List.length_cons]
    rcases List.mem_append.1 he with he | he
    · exact (e2 e he).mono (by omega)
    · exact (f2 e he).mono (by omega)

theorem streamy_sound {d : Dims} {N : Nat} (hN : N ≤ d.segs) {e : Ev} (he : e.streamy N) : e.sound d := by
  cases e with
  | call row metric _ _ _ _ _ react =>
    obtain ⟨j, a, rfl, b, -⟩ := he
    refine ⟨a.trans hN, rfl, ?_⟩
    cases react with
    | false => simp only [Bool.false_eq_true, if_false] at b ⊢; omega
    | true => simp only [if_true] at b ⊢; exact Or.inr ⟨b.1, j, b.2, rfl⟩
  | final row _ => obtain ⟨j, a, rfl⟩ := he; exact ⟨j, rfl, a.trans hN⟩
  | _ => exact absurd he (by simp [Ev.streamy])

theorem streamy_quiet {N : Nat} {k : Key} (hk : k.inUnit) {l : List Ev} (hl : ∀ e ∈ l, e.streamy N) : Quiet k l := by
  intro e he
  have := hl e he
  cases e with
  | call row metric _ _ _ _ _ react =>
    obtain ⟨j, a, rfl, b⟩ := this
    have hne : ¬ k = .seg false j := by rintro rfl; exact hk
    cases react <;> simp [Ev.into, Ev.from, Ev.reaction, Ev.volumes, hne]
  | final row _ => simp [Ev.into, Ev.from, Ev.reaction, Ev.volumes]
  | _ => exact absurd this (by simp [Ev.streamy])

theorem streamy_hushed {N : Nat} {e : Ev} (h : e.streamy N) (u : Nat) : e.hushed u ∧ e.bound := by
  cases e with
  | call row metric _ _ _ mru _ react =>
    obtain ⟨j, a, rfl, b, rfl⟩ := h
    cases react <;> simp [Ev.hushed, Ev.crossIn, Ev.crossOut, Ev.enters, Ev.leaves, Ev.made, Key.unit?, Ev.bound]
  | final row _ => simp [Ev.hushed, Ev.crossIn, Ev.crossOut, Ev.enters, Ev.leaves, Ev.made, Ev.bound]
  | _ => exact absurd h (by simp [Ev.streamy])

/-! ### Records of units -/

/-- A unit inside the tables. -/
structure Flow.Inside (f : Flow) (d : Dims) : Prop where
  unit : 1 ≤ f.unit ∧ f.unit ≤ d.nmru
  bins : f.bins.length ≤ d.nac
  ext : f.srcExt + 1 ≤ d.nchemdat
  int : f.srcInt ≤ d.segs

theorem Flow.Row.within {f : Flow} {d : Dims} (hi : f.Inside d) {k : Key} (h : f.Row k) : k.Within d ∧ k.row = k := by
  have := hi.ext
  rcases h with rfl | rfl | rfl | ⟨i, h, rfl⟩ | ⟨j, h1, h2, rfl⟩
  · exact ⟨⟨le_rfl, by omega⟩, rfl⟩
  · exact ⟨⟨by omega, hi.ext⟩, rfl⟩
  · exact ⟨hi.int, rfl⟩
  · refine ⟨⟨?_, hi.unit⟩, rfl⟩
    simp only [List.mem_cons, List.not_mem_nil, or_false] at h
    omega
  · exact ⟨⟨hi.unit, h1, h2.trans hi.bins⟩, rfl⟩

theorem proper_sound {f : Flow} {d : Dims} (hi : f.Inside d) {e : Ev} (he : e.proper f) : e.sound d := by
  cases e with
  | call row metric _ _ _ _ _ react =>
    obtain ⟨a, b⟩ := he
    obtain ⟨w1, w2⟩ := a.within hi
    refine ⟨w1, w2, ?_⟩
    cases react with
    | false => simpa using b
    | true => simp only [if_true] at b ⊢; exact Or.inl ⟨b.2.2.2, b.1, b.2.1, b.2.2.1⟩
  | set row _ _ _ => exact Flow.Row.within hi he
  | final row _ => exact absurd he (by simp [Ev.proper])
  | enter _ _ _ => trivial
  | leave _ _ _ => trivial

theorem Flow.Row.ne {f : Flow} {k k' : Key} (h : f.Row k') (hk : k.inUnit) {u : Nat} (hu : k.of u) (hne : u ≠ f.unit) : ¬ k = k' := by
  rintro rfl
  rcases h with rfl | rfl | rfl | ⟨i, h, rfl⟩ | ⟨j, h1, h2, rfl⟩
  · exact hk
  · exact hk
  · exact hk
  · exact hne hu.symm
  · exact hne hu.symm

theorem proper_quiet {f : Flow} {k : Key} (hk : k.inUnit) {u : Nat} (hu : k.of u) (hne : u ≠ f.unit) {l : List Ev}
    (hl : ∀ e ∈ l, e.proper f) : Quiet k l := by
  intro e he
  have := hl e he
  cases e with
  | call row metric _ _ _ _ _ react =>
    have hne := this.1.ne hk hu hne
    cases react <;> simp [Ev.into, Ev.from, Ev.reaction, Ev.volumes, hne]
  | set row _ _ _ =>
    have hne := Flow.Row.ne this hk hu hne
    simp [Ev.into, Ev.from, Ev.reaction, Ev.volumes, hne]
  | final row _ => exact absurd this (by simp [Ev.proper])
  | enter _ _ _ => simp [Ev.into, Ev.from, Ev.reaction, Ev.volumes]
  | leave _ _ _ => simp [Ev.into, Ev.from, Ev.reaction, Ev.volumes]

end Verif.Transport
