import Verif.Lemmas.Growth
import Mathlib.Tactic.SplitIfs
/-
C145: tables that grow, allocation routines, names of modules.
-/
namespace Verif.Growth

/-- A new table is empty. -/
theorem C145_alloc (α : Type) (n : Nat) : Holds (alloc α n) [] := by
  refine ⟨rfl, by simp [alloc, mallocCells], Nat.zero_le _, ?_⟩
  intro i hi
  exact absurd hi (by simp)

/-- One addition, with each of the three routines: nothing is written outside the block, the entry is behind the others, and these are kept. -/
theorem C145_add {α : Type} (t : Table α) (xs : List α) (h : Holds t xs) (x : α) :
    (∃ t', addToList t x = some t' ∧ Holds t' (xs ++ [x])) ∧ (∃ t', addToBase t x = some t' ∧ Holds t' (xs ++ [x])) ∧
    (∃ t', addToReads t x = some t' ∧ Holds t' (xs ++ [x])) := by
  have h3 := h.2.2.1
  refine ⟨?_, ?_, ?_⟩
  · unfold addToList
    split
    · obtain ⟨t', e1, e2, _⟩ := append_holds (resize_holds h (t.size + 100) (by omega)) (by simp only [resize]; omega) x
      exact ⟨t', e1, e2⟩
    · obtain ⟨t', e1, e2, _⟩ := append_holds h (by omega) x
      exact ⟨t', e1, e2⟩
  · unfold addToBase
    split
    · obtain ⟨t', e1, e2, _⟩ := append_holds (resize_holds h (t.size + 100) (by omega)) (by simp only [resize]; omega) x
      exact ⟨t', e1, e2⟩
    · obtain ⟨t', e1, e2, _⟩ := append_holds h (by omega) x
      exact ⟨t', e1, e2⟩
  · unfold addToReads
    split
    · obtain ⟨t', e1, e2, _⟩ := append_holds (resize_holds h (t.size + 50) (by omega)) (by simp only [resize]; omega) x
      exact ⟨t', e1, e2⟩
    · obtain ⟨t', e1, e2, _⟩ := append_holds h (by omega) x
      exact ⟨t', e1, e2⟩

/-- Any number of additions to a table of any size at first, also of none: all entries are there, in their order. -/
theorem C145_grow {α : Type} (n : Nat) (ys : List α) :
    (∃ t, addAll addToList (alloc α n) ys = some t ∧ Holds t ys) ∧ (∃ t, addAll addToBase (alloc α n) ys = some t ∧ Holds t ys) ∧
    (∃ t, addAll addToReads (alloc α n) ys = some t ∧ Holds t ys) := by
  have h0 := C145_alloc α n
  refine ⟨?_, ?_, ?_⟩
  · simpa using addAll_holds (fun t xs x h => (C145_add t xs h x).1) ys _ _ h0
  · simpa using addAll_holds (fun t xs x h => (C145_add t xs h x).2.1) ys _ _ h0
  · simpa using addAll_holds (fun t xs x h => (C145_add t xs h x).2.2) ys _ _ h0

/-- A list that is made smaller by `RESIZE_list` keeps its count; the next `ADD_to_list` makes it larger by 100 only.  If that is still not
enough, it writes outside the block. -/
theorem C145_resize_violated {α : Type} (t : Table α) (n : Nat) (h : n + 100 ≤ t.count) (x : α) : addToList (resize t n) x = none := by
  unfold addToList
  rw [if_pos (by simp only [resize]; omega)]
  unfold append store
  rw [if_neg]
  · rfl
  · simp only [resize]
    rw [length_realloc]
    omega

/-- A table with 200 entries that is made smaller meets the hypothesis. -/
example : ∃ t : Table Nat, addAll addToList (alloc Nat 50) (List.range 200) = some t ∧ Holds t (List.range 200) ∧ 50 + 100 ≤ t.count := by
  obtain ⟨t, h1, h2⟩ := (C145_grow 50 (List.range 200)).1
  refine ⟨t, h1, h2, ?_⟩
  rw [h2.1]
  simp

/-- The case of the hypothesis `Holds`: three entries in a table without room at first. -/
example : ((addAll addToBase (alloc Nat 0) [7, 8, 9]).map fun t => [some t.size, some t.count, entry t 0, entry t 1, entry t 2, entry t 3]) =
    some [some 100, some 3, some 7, some 8, some 9, none] := by decide +kernel

/-- A parameter that changes is copied to every place that a module has registered for it, in the order of registration, and to no other. -/
theorem C145_update {α β : Type} (n : Nat) (ps : List α) (write : α → β → β) (b : β) :
    ∃ t, addAll addToBase (alloc α n) ps = some t ∧ updateparam t write b = some (ps.foldl (fun b p => write p b) b) := by
  obtain ⟨t, h1, h2⟩ := (C145_grow n ps).2.1
  refine ⟨t, h1, ?_⟩
  have key : ∀ (k i : Nat) (b : β), i + k = ps.length → updateFrom t write k i b = some ((ps.drop i).foldl (fun b p => write p b) b) := by
    intro k
    induction k with
    | zero =>
      intro i b hi
      rw [List.drop_of_length_le (by omega)]
      rfl
    | succ k ih =>
      intro i b hi
      have hlt : i < ps.length := by omega
      rw [updateFrom, h2.2.2.2 i hlt]
      simp only
      rw [ih (i + 1) _ (by omega), List.drop_eq_getElem_cons hlt]
      rfl
  unfold updateparam
  rw [key _ 0 b (by rw [h2.1]; omega)]
  rfl

example : (addAll addToBase (alloc Nat 100) [2, 0]).bind (fun t => updateparam t (fun p m => m.set p 5) [1, 1, 1]) = some [5, 1, 5] := by
  decide +kernel

/-- `umalloc` and `urealloc` give memory or end the program; NULL only for size 0. -/
theorem C145_umalloc (ptr : Option Nat) (size : Nat) (got : Option Nat) :
    (umalloc size got = .ptr none ↔ size = 0) ∧ (urealloc ptr size got = .ptr none → size = 0) ∧
    (∀ p, 0 < size → got = some p → umalloc size got = .ptr (some p) ∧ urealloc ptr size got = .ptr (some p)) ∧
    (0 < size → got = none → umalloc size got = .stop ∧ urealloc ptr size got = .stop) := by
  unfold urealloc umalloc
  refine ⟨?_, ?_, ?_, ?_⟩
  · split_ifs with h1 h2
    · simp [h1]
    · simp [h1]
    · simp [h1, h2]
  · split_ifs with h1 h2 h3 h4 h5 <;> simp_all
  · rintro p hs rfl
    rw [if_neg (by omega)]
    simp
  · rintro hs rfl
    rw [if_neg (by omega)]
    simp
    omega

/-- `ucalloc` ends the program whatever is asked for, also if there is memory (and then without a message). -/
theorem C145_ucalloc_violated (num size p : Nat) : ucalloc num size (some p) = (false, .stop) ∧ ucalloc num size (some p) ≠ (false, .ptr (some p)) :=
  ⟨by simp [ucalloc], by simp [ucalloc]⟩

/-! ### Names of modules -/

/-- The file name is what is behind the last `/`. -/
theorem C145_base (p s : List Nat) (h : 47 ∉ s) : baseName (p ++ 47 :: s) = s ∧ baseName s = s := by
  have h' : ∀ c ∈ s.reverse, decide (c ≠ 47) = true := by
    intro c hc
    rw [decide_eq_true_eq]
    rintro rfl
    exact h (by simpa using hc)
  constructor
  · unfold baseName
    rw [List.reverse_append, List.reverse_cons, List.append_assoc, List.takeWhile_append_of_pos h']
    simp
  · unfold baseName
    have := List.takeWhile_append_of_pos (l₂ := []) h'
    simp only [List.append_nil, List.takeWhile_nil] at this
    rw [this, List.reverse_reverse]

/-- The list of the modules has for each of them the first 20 characters of its file name, up to a blank: each its own, whatever the others. -/
theorem C145_modules (ns : List (List Nat)) (i : Nat) (hi : i < ns.length) (h0 : 0 ∉ ns[i]) :
    moduleName ns i = some (((baseName ns[i]).take 20).takeWhile (· ≠ 32)) := by
  unfold moduleName moduleNames
  rw [drop_names ns i hi]
  have hb : 0 ∉ baseName ns[i] := by
    intro h
    apply h0
    unfold baseName at h
    rw [List.mem_reverse] at h
    simpa using (List.takeWhile_sublist _).subset h
  generalize baseName ns[i] = s at hb
  unfold name20
  rw [List.map_append, List.append_assoc, copyText_eq]
  · rw [List.take_take]
    rfl
  · exact fun h => hb ((List.take_sublist _ _).subset h)
  · intro hl
    rw [List.length_take] at hl
    rw [show 20 - s.length = (19 - s.length) + 1 by omega, List.replicate_succ, List.map_cons, List.cons_append]
    exact ⟨_, rfl⟩

/-- In particular names of up to 20 characters without blanks are written as they are. -/
theorem C145_modules_same (ns : List (List Nat)) (i : Nat) (hi : i < ns.length) (h0 : 0 ∉ ns[i]) (hb : 32 ∉ baseName ns[i])
    (hl : (baseName ns[i]).length ≤ 20) : moduleName ns i = some (baseName ns[i]) := by
  rw [C145_modules ns i hi h0, List.take_of_length_le hl]
  have := List.takeWhile_append_of_pos (p := fun c : Nat => decide (c ≠ 32)) (l₁ := baseName ns[i]) (l₂ := [])
    (by intro c hc; rw [decide_eq_true_eq]; rintro rfl; exact hb hc)
  simp only [List.append_nil, List.takeWhile_nil] at this
  rw [this]

/-- The connections written are those of the table, as many as the numbers of the modules say; if these say more than there are, the
program reads outside the table. -/
theorem C145_connections (con : List Int) (num : List Nat) :
    (num.sum ≤ con.length → connections con num 0 = some (con.take num.sum)) ∧ (con.length < num.sum → connections con num 0 = none) := by
  rw [connections_eq]
  constructor
  · intro h
    rw [if_pos (Or.inl (by omega))]
    rfl
  · intro h
    rw [if_neg (by omega)]

/-- The characters of a string. -/
def codes (s : String) : List Nat := s.toList.map Char.toNat

/-- Modules of the model, nodes.h:8-25, and longer names. -/
example : moduleName [codes "/webmod/basin_topg.f", codes "/webmod/potet_hamon_prms.f", codes "io.f"] 1 = some (codes "potet_hamon_prms.f") ∧
    moduleName [codes "/webmod/potet_hamon_prms_new.f", codes "io.f"] 0 = some (codes "potet_hamon_prms_new") ∧
    moduleName [codes "io.f", codes "/webmod/two parts.f"] 1 = some (codes "two") := by decide +kernel

/-- The numbers of connections of nodes.h:8-25 add up to the entries of its table, nodes.h:29-43. -/
example : [0, 0, 0, 0, 0, 4, 1, 2, 5, 7, 2, 2, 7, 1, 4, 9, 9, 5].sum =
    [3, 4, 6, 7, 3, 3, 6, 3, 6, 7, 12, 14, 0, 3, 5, 6, 7, 10, 11, 6, 9, 5, 6, 1, 3, 7, 8, 9, 10, 11, 12, 1, 3, 8, 13,
     1, 7, 8, 9, 10, 11, 12, 13, 14, 1, 2, 7, 8, 10, 11, 12, 14, 15, 1, 5, 6, 11, 15].length := by decide

end Verif.Growth
