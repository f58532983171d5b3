import Verif.Spec.CallModules
import Mathlib.Tactic.SplitIfs
/-
Helper lemmas for C19.
-/
namespace Verif.CallModules
open Verif.Control (controlString strncpy)

theorem names_documented : modules.map (·.name) = documented := by decide

theorem named_mem : ∀ m ∈ modules, modules.find? (·.name = m.name) = some m := by decide

theorem callSeq_props {W} (act : String → W → Int × W) (ph : Phase) (ms : List Module) (w : W) :
    let o := callSeq act ph ms w
    o.calls.map (·.1) <+: ms.map (·.name) ∧
    (o.ret = 0 ↔ o.calls.map (·.1) = ms.map (·.name) ∧ ∀ c ∈ o.calls, c.2 = 0) ∧
    (o.ret ≠ 0 → ∃ before m, o.calls = before ++ [(m, o.ret)] ∧ ∀ c ∈ before, c.2 = 0) := by
  induction ms generalizing w with
  | nil => simp [callSeq]
  | cons m ms ih =>
    simp only [callSeq]
    obtain ⟨r, w'⟩ := callModule act ph m w
    by_cases hr : r = 0
    · subst hr
      simp only [ne_eq, not_true_eq_false, if_false]
      obtain ⟨i1, i2, i3⟩ := ih w'
      refine ⟨?_, ?_, ?_⟩
      · simpa using i1
      · rw [i2]; simp
      · intro h
        obtain ⟨b, m', e, hb⟩ := i3 h
        refine ⟨(m.name, 0) :: b, m', by simp [e], ?_⟩
        intro c hc
        rcases List.mem_cons.1 hc with rfl | hc
        · rfl
        · exact hb c hc
    · simp only [ne_eq, hr, not_false_eq_true, if_true]
      refine ⟨by simp, ?_, fun _ => ⟨[], m.name, rfl, by simp⟩⟩
      simp [hr]

theorem callSeq_runs {W} (act : String → W → Int × W) (ph : Phase) (ms : List Module) (w : W)
    (hms : ∀ m ∈ ms, modules.find? (·.name = m.name) = some m) :
    Runs (named act ph) w (callSeq act ph ms w).calls (callSeq act ph ms w).world := by
  induction ms generalizing w with
  | nil => simp [callSeq, Runs]
  | cons m ms ih =>
    have hn : named act ph m.name w = callModule act ph m w := by
      unfold named
      rw [hms m (by simp)]
    simp only [callSeq]
    generalize hcm : callModule act ph m w = p at *
    obtain ⟨r, w'⟩ := p
    by_cases hr : r = 0
    · subst hr
      simp only [ne_eq, not_true_eq_false, if_false, Runs, hn, true_and]
      exact ih w' (fun m hm => hms m (by simp [hm]))
    · simp [hr, Runs, hn]

theorem orderly_seq {W} (act : String → W → Int × W) (ph : Phase) (w : W) :
    Orderly (callSeq act ph modules w).calls (callSeq act ph modules w).ret := by
  obtain ⟨h1, h2, h3⟩ := callSeq_props act ph modules w
  rw [names_documented] at h1 h2
  exact ⟨h1, h2, h3⟩

theorem take_controlString {s p : List Char} (h9 : p.length ≤ 9) (h : p <+: s) :
    (controlString 9 s).take p.length = p := by
  obtain ⟨t, rfl⟩ := h
  unfold controlString strncpy
  rw [List.append_assoc, List.take_append_of_le_length (by simp; omega), List.take_take,
    Nat.min_eq_left h9, List.take_append_of_le_length (Nat.le_refl _), List.take_length]

theorem supported_mode {s : List Char} (h : Supported s) :
    1 ≤ modeOf (controlString 9 s) ∧ modeOf (controlString 9 s) ≤ 4 := by
  unfold modeOf
  rcases h with h | h | h | h <;> have := take_controlString (by decide) h
  · change (controlString 9 s).take 5 = _ at this
    split_ifs <;> first | omega | simp_all
  · change (controlString 9 s).take 5 = _ at this
    split_ifs <;> first | omega | simp_all
  · change (controlString 9 s).take 5 = _ at this
    split_ifs <;> first | omega | simp_all
  · change (controlString 9 s).take 4 = _ at this
    split_ifs <;> first | omega | simp_all

/-- What a supported mode makes of every phase. -/
theorem callModules_supported {W} (act : String → W → Int × W) (c : Controls) {s p : List Char}
    (hs : c.modelMode = some s) (hp : c.precipModule = some p) (hsup : Supported s) (ph : Phase)
    (model : Option Int) (hm : ph = .declare ∨ ∃ k, model = some k ∧ 1 ≤ k ∧ k ≤ 4) (w : W) :
    ∃ k, 1 ≤ k ∧ k ≤ 4 ∧
      callModules act c ph model w = some ⟨some k, callSeq act ph modules w⟩ := by
  have hk := supported_mode hsup
  have e : ∀ k : Int, k ≤ 4 → dispatch act ph k w = ⟨some k, callSeq act ph modules w⟩ := by
    intro k h; unfold dispatch; rw [if_neg (by omega)]
  unfold callModules
  cases ph with
  | declare =>
    simp only [hs, hp]
    refine ⟨_, hk.1, hk.2, ?_⟩
    rw [if_neg (by omega), e _ hk.2]
  | «initialize» | run | cleanup =>
    obtain h | ⟨k, rfl, h1, h2⟩ := hm
    · cases h
    · exact ⟨k, h1, h2, by simp only [e k h2]⟩

theorem loop_supported {W} (act : String → W → Int × W) (c : Controls) {s p : List Char}
    (hs : c.modelMode = some s) (hp : c.precipModule = some p) (hsup : Supported s) (n : Nat)
    (k : Int) (hk : 1 ≤ k ∧ k ≤ 4) (w : W) :
    ∃ h, loop act c (some k) n w = some h ∧
      h.map (·.1) <+: List.replicate n .run ++ [.cleanup] ∧
      (∀ x ∈ h, Orderly x.2.1 x.2.2) ∧ (∀ x ∈ h.dropLast, x.2.2 = 0) ∧
      ((∀ x ∈ h, x.2.2 = 0) → h.map (·.1) = List.replicate n .run ++ [.cleanup]) := by
  induction n generalizing k w with
  | zero =>
    obtain ⟨k', -, -, e⟩ := callModules_supported act c hs hp hsup .cleanup (some k)
      (Or.inr ⟨k, rfl, hk⟩) w
    refine ⟨[(.cleanup, (callSeq act .cleanup modules w).calls, (callSeq act .cleanup modules w).ret)],
      by simp only [loop, e], by simp, ?_, by simp, by simp⟩
    simpa using orderly_seq act .cleanup w
  | succ n ih =>
    obtain ⟨k', h1, h2, e⟩ := callModules_supported act c hs hp hsup .run (some k)
      (Or.inr ⟨k, rfl, hk⟩) w
    have ho := orderly_seq act .run w
    by_cases hr : (callSeq act .run modules w).ret = 0
    · obtain ⟨h, i1, i2, i3, i4, i5⟩ := ih k' ⟨h1, h2⟩ (callSeq act .run modules w).world
      refine ⟨(.run, (callSeq act .run modules w).calls, 0) :: h, by simp only [loop, e, ne_eq, hr, not_true_eq_false, if_false, i1]; rfl, ?_, ?_, ?_, ?_⟩
      · simpa [List.replicate_succ] using i2
      · intro x hx
        rcases List.mem_cons.1 hx with rfl | hx
        · rw [← hr]; exact ho
        · exact i3 x hx
      · intro x hx
        cases h with
        | nil => simp at hx
        | cons y t =>
          rw [List.dropLast_cons_cons] at hx
          rcases List.mem_cons.1 hx with rfl | hx
          · rfl
          · exact i4 x hx
      · intro h0
        have := i5 fun x hx => h0 x (by simp [hx])
        simp [List.replicate_succ, this]
    · refine ⟨[(.run, (callSeq act .run modules w).calls, (callSeq act .run modules w).ret)],
        by simp only [loop, e, ne_eq, hr, not_false_eq_true, if_true], ?_, ?_, by simp, ?_⟩
      · simp [List.replicate_succ]
      · simpa using ho
      · intro h0
        exact absurd (h0 _ (List.mem_singleton.2 rfl)) hr

end Verif.CallModules
