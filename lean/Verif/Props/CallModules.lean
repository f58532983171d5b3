import Verif.Lemmas.CallModules
/-
C19: each phase calls the modules in the documented order and reports the first error.
-/
namespace Verif.CallModules

/-- C19: in a supported mode every phase calls the modules in the documented order, each once, stops at
the first error and returns it, and succeeds exactly if all modules succeed; the calls really are what
happened to the world.  For the other phases `model` is the mode found while declaring. -/
theorem C19_phase {W} (act : String → W → Int × W) (c : Controls) (s p : List Char)
    (hs : c.modelMode = some s) (hp : c.precipModule = some p) (hsup : Supported s) (ph : Phase)
    (model : Option Int) (hm : ph = .declare ∨ ∃ k, model = some k ∧ 1 ≤ k ∧ k ≤ 4) (w : W) :
    ∃ a, callModules act c ph model w = some a ∧ Orderly a.res.calls a.res.ret ∧
      Runs (named act ph) w a.res.calls a.res.world ∧ ∃ k, a.model = some k ∧ 1 ≤ k ∧ k ≤ 4 := by
  obtain ⟨k, h1, h2, e⟩ := callModules_supported act c hs hp hsup ph model hm w
  exact ⟨_, e, orderly_seq act ph w, callSeq_runs act ph modules w named_mem, k, rfl, h1, h2⟩

/-- C19: a whole run over `n` records calls the phases declare, initialize, run for every record,
cleanup; it goes on after a phase only if that phase succeeded, except after declare; every phase is
orderly; when all phases succeed none is left out. -/
theorem C19_program_partial {W} (act : String → W → Int × W) (c : Controls) (s p : List Char)
    (hs : c.modelMode = some s) (hp : c.precipModule = some p) (hsup : Supported s) (n : Nat) (w : W) :
    ∃ h, program act c n w = some h ∧ h.map (·.1) <+: phases n ∧
      (∀ x ∈ h, Orderly x.2.1 x.2.2) ∧ (∀ x ∈ h.dropLast.drop 1, x.2.2 = 0) ∧
      ((∀ x ∈ h, x.2.2 = 0) → h.map (·.1) = phases n) := by
  obtain ⟨k, h1, h2, e⟩ := callModules_supported act c hs hp hsup .declare none (Or.inl rfl) w
  obtain ⟨k', h1', h2', e'⟩ := callModules_supported act c hs hp hsup .initialize (some k)
    (Or.inr ⟨k, rfl, h1, h2⟩) (callSeq act .declare modules w).world
  have o1 := orderly_seq act .declare w
  have o2 := orderly_seq act .initialize (callSeq act .declare modules w).world
  unfold program
  rw [e]
  dsimp only
  rw [e']
  dsimp only
  generalize callSeq act .declare modules w = a at *
  generalize callSeq act .initialize modules a.world = b at *
  by_cases hr : b.ret = 0
  · obtain ⟨h, i1, i2, i3, i4, i5⟩ := loop_supported act c hs hp hsup n k' ⟨h1', h2'⟩ b.world
    rw [if_neg (by simpa using hr), i1]
    refine ⟨_, rfl, ?_, ?_, ?_, ?_⟩
    · simpa [phases] using i2
    · intro x hx
      rcases List.mem_cons.1 hx with rfl | hx
      · exact o1
      · rcases List.mem_cons.1 hx with rfl | hx
        · exact o2
        · exact i3 x hx
    · intro x hx
      rw [List.dropLast_cons_cons, List.drop_succ_cons, List.drop_zero] at hx
      cases h with
      | nil => simp at hx
      | cons y t =>
        rw [List.dropLast_cons_cons] at hx
        rcases List.mem_cons.1 hx with rfl | hx
        · exact hr
        · exact i4 x hx
    · intro h0
      have := i5 fun x hx => h0 x (by simp [hx])
      simp [phases, this]
  · rw [if_pos (by simpa using hr)]
    refine ⟨_, rfl, by simp [phases], ?_, ?_, ?_⟩
    · intro x hx
      simp only [List.mem_cons, List.not_mem_nil, or_false] at hx
      rcases hx with rfl | rfl
      · exact o1
      · exact o2
    · simp
    · intro h0
      exact absurd (h0 (.initialize, b.calls, b.ret) (by simp)) hr

/-- A world that records the routines that were run; routine `bad` fails with 7. -/
def logging (bad : String) (r : String) (w : List String) : Int × List String :=
  (if r = bad then 7 else 0, w ++ [r])

/-- C19: when every module succeeds, a phase executes the routines of the modules in this order,
each once (the world records the routines that were run). -/
theorem C19_routines (c : Controls) (s p : List Char) (hs : c.modelMode = some s)
    (hp : c.precipModule = some p) (hsup : Supported s) (ph : Phase) (model : Option Int)
    (hm : ph = .declare ∨ ∃ k, model = some k ∧ 1 ≤ k ∧ k ≤ 4) (w : List String) :
    ∃ a, callModules (fun r w => (0, w ++ [r])) c ph model w = some a ∧ a.res.ret = 0 ∧
      a.res.world = w ++ routines ph := by
  obtain ⟨k, h1, h2, e⟩ := callModules_supported (fun r w => (0, w ++ [r])) c hs hp hsup ph model hm w
  refine ⟨_, e, ?_⟩
  cases ph <;> simp [callSeq, modules, callModule, routine, routines]

/-- C19: a blank mode, nine or more blanks, is the daily mode. -/
theorem C19_blank {W} (act : String → W → Int × W) (p : Option (List Char)) (rest : List Char) (w : W) :
    callModules act ⟨some (List.replicate 9 ' ' ++ rest), p⟩ .declare none w =
      callModules act ⟨some "DAILY".toList, p⟩ .declare none w := by
  have h : ∀ s t : List Char, modeOf (Control.controlString 9 s) = modeOf (Control.controlString 9 t) →
      callModules act ⟨some s, p⟩ .declare none w = callModules act ⟨some t, p⟩ .declare none w := by
    intro s t h
    unfold callModules
    dsimp only
    rw [h]
  apply h
  have : Control.controlString 9 (List.replicate 9 ' ' ++ rest) = List.replicate 9 ' ' := by
    simp [Control.controlString, Control.strncpy]
  rw [this]
  decide

/-- C19: the mode that only writes name files refuses every other phase and calls no module. -/
theorem C19_name_mode {W} (act : String → W → Int × W) (c : Controls) (ph : Phase) (h : ph ≠ .declare) (w : W) :
    ∃ a, callModules act c ph (some 99) w = some a ∧ a.res.calls = [] ∧ a.res.ret ≠ 0 ∧ a.res.world = w ∧
      a.model = some 99 := by
  cases ph with
  | declare => exact absurd rfl h
  | _ => exact ⟨_, rfl, rfl, by simp [dispatch], rfl, rfl⟩

/-- A typical control file. -/
def daily : Controls := ⟨some "DAILY".toList, some "precip_web".toList⟩

example : Supported "DAILY".toList := Or.inl (List.prefix_refl _)

example : (callModules (logging "csolinit") daily .initialize (some 1) []).map (·.res.ret) = some 7 ∧
    (callModules (logging "csolinit") daily .initialize (some 1) []).map (·.res.calls.map (·.1)) =
      some (documented.take 9) := by decide

example : (program (logging "petrun") daily 3 []).map (·.map fun x => (x.1, x.2.2)) =
    some [(.declare, 0), (.initialize, 0), (.run, 7)] := by decide

/-- C19 fails for a mode that is not implemented: no module is called, yet the declare phase reports
success, and the program goes on to initialise modules that were never declared. -/
theorem C19_mode_violated :
    (program (logging "") ⟨some "WEEKLY".toList, some "precip_web".toList⟩ 0 []).map
      (·.map fun x => (x.1, x.2.1.map (·.1), x.2.2)) =
    some [(.declare, [], 0), (.initialize, documented, 0), (.cleanup, documented, 0)] := by decide

/-- An empty `model_mode` is not taken as blank either: it arrives as nine NUL characters. -/
theorem C19_empty_mode_violated :
    (callModules (logging "") ⟨some [], some "precip_web".toList⟩ .declare none []).map
      (fun a => (a.model, a.res.calls.map (·.1), a.res.ret)) = some (some (-1), [], 0) := by decide

/-- C19 fails with the mode that only writes name files: errors are ignored. -/
theorem C19_name_mode_violated :
    (callModules (logging "basdecl") ⟨some "_name".toList, some "precip_web".toList⟩ .declare none []).map
      (fun a => (a.res.calls.map (·.1), a.res.calls.map (·.2), a.res.ret)) =
    some (documented, [0, 0, 7] ++ List.replicate 15 0, 0) := by decide

/-- C19 fails for the declare phase of the program: after an error the program goes on. -/
theorem C19_declare_error_violated :
    (program (logging "basdecl") daily 1 []).map (·.map fun x => (x.1, x.2.2)) =
    some [(.declare, 7), (.initialize, 0), (.run, 0), (.cleanup, 0)] := by decide

end Verif.CallModules
