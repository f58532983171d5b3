import Verif.Spec.Mms
import Verif.Lemmas.StorageBinList
import Mathlib.Algebra.Order.Field.Rat
import Mathlib.Tactic.FieldSimp
/-
Lemmas for mixing requests.
-/
namespace Verif.Mms
open Verif.CText
open Verif.Sbl (intText)

/-! ### Reading the generated lines -/

theorem strtok_word {w : Text} (h0 : w ≠ []) (hw : ∀ c ∈ w, isSpace c = false) {c : Char} (hc : isSpace c = true) (s : Text) :
    strtok isSpace (w ++ c :: s) = w :: strtok isSpace s := by
  unfold strtok
  rw [splitBy_word_sep hw hc, List.filter_cons]
  simp [h0]

theorem strtok_single {w : Text} (h0 : w ≠ []) (hw : ∀ c ∈ w, isSpace c = false) : strtok isSpace w = [w] := by
  unfold strtok
  rw [splitBy_word hw]; simp [h0]

theorem intText_word (n : Int) : ∀ c ∈ intText n, isSpace c = false := by
  intro c hc
  unfold intText at hc
  split at hc
  · rcases List.mem_cons.1 hc with hc | hc
    · subst hc; decide
    · exact digit_not_space (decimal_digits _ c hc)
  · exact digit_not_space (decimal_digits _ c hc)

theorem int_intText {n : Int} (h : IntOk n) : int? (intText n) = some n := by
  have := Sbl.readInt_intText (i := n) (r := []) h.1 (by unfold Sbl.intMax; exact h.2) (by simp)
  rw [List.append_nil] at this
  unfold int?
  rw [this]

theorem blank : isSpace ' ' = true := by decide

theorem parse_mix (rd : Text → Option Rat) : parse rd "MIX".toList = some .mix := by
  unfold parse words; rw [strtok_single (by decide) (by decide)]; simp

theorem parse_end (rd : Text → Option Rat) : parse rd "END".toList = some .fin := by
  unfold parse words; rw [strtok_single (by decide) (by decide)]
  simp

theorem parse_comp {num : Rat → Text} {rd : Text → Option Rat} {near : Rat → Rat} (hn : NumOk num rd near) {n : Int}
    (h : IntOk n) (x : Rat) : parse rd (compLine num n x) = some (.comp n (near x)) := by
  have hw : words (compLine num n x) = [intText n, num x] := by
    unfold words compLine
    have := strtok_seps (p := isSpace) (s := ['\t']) (by decide) (intText n ++ ' ' :: num x)
    rw [List.singleton_append] at this
    rw [this, strtok_word (Sbl.intText_ne_nil n) (intText_word n) blank, strtok_single (hn x).1 (hn x).2.1]
  unfold parse
  rw [hw]
  simp only [int_intText h, (hn x).2.2]
  rfl

theorem words3 {a b : Text} (ha : a ≠ []) (ha' : ∀ c ∈ a, isSpace c = false) (hb : b ≠ []) (hb' : ∀ c ∈ b, isSpace c = false) (n : Int) :
    words (a ++ ' ' :: (b ++ ' ' :: intText n)) = [a, b, intText n] := by
  unfold words
  rw [strtok_word ha ha' blank, strtok_word hb hb' blank, strtok_single (Sbl.intText_ne_nil n) (intText_word n)]

theorem parse_saveSol (rd : Text → Option Rat) {n : Int} (h : IntOk n) :
    parse rd (numLine "SAVE solution" n) = some (.saveSol n) := by
  have hw : words (numLine "SAVE solution" n) = ["SAVE".toList, "solution".toList, intText n] := by
    have e : numLine "SAVE solution" n = "SAVE".toList ++ ' ' :: ("solution".toList ++ ' ' :: intText n) := rfl
    rw [e]; exact words3 (by decide) (by decide) (by decide) (by decide) n
  have hl : "solution".toList.map Char.toLower = "solution".toList := by decide
  unfold parse
  rw [hw]
  simp only [int_intText h, Option.bind_some, hl, if_true]

theorem parse_copy (rd : Text → Option Rat) {a b : Int} (ha : IntOk a) (hb : IntOk b) :
    parse rd (numLine "COPY SOLUTION" a ++ ' ' :: intText b) = some (.copySol a b) := by
  have hw : words (numLine "COPY SOLUTION" a ++ ' ' :: intText b) = ["COPY".toList, "SOLUTION".toList, intText a, intText b] := by
    have e : numLine "COPY SOLUTION" a ++ ' ' :: intText b =
        "COPY".toList ++ ' ' :: ("SOLUTION".toList ++ ' ' :: (intText a ++ ' ' :: intText b)) := by
      unfold numLine
      have : "COPY SOLUTION".toList = "COPY".toList ++ ' ' :: "SOLUTION".toList := by decide
      rw [this]; simp
    rw [e]; unfold words
    rw [strtok_word (by decide) (by decide) blank, strtok_word (by decide) (by decide) blank,
      strtok_word (Sbl.intText_ne_nil a) (intText_word a) blank, strtok_single (Sbl.intText_ne_nil b) (intText_word b)]
  have hl : "SOLUTION".toList.map Char.toLower = "solution".toList := by decide
  unfold parse
  rw [hw]
  simp only [int_intText ha, int_intText hb, Option.bind_some, hl, and_self, if_true]

theorem kind_word (k : Kind) : (kindName k).toList ≠ [] ∧ (∀ c ∈ (kindName k).toList, isSpace c = false) ∧
    (kindName k).toList.map Char.toLower = (kindName k).toList ∧ kindOf (kindName k).toList = some k ∧
    (kindName k).toList ≠ "solution".toList := by
  cases k <;> decide

theorem parse_use (rd : Text → Option Rat) (k : Kind) {n : Int} (h : IntOk n) :
    parse rd (numLine ("USE " ++ kindName k) n) = some (.use k n) := by
  obtain ⟨h1, h2, h3, h4, _⟩ := kind_word k
  have hw : words (numLine ("USE " ++ kindName k) n) = ["USE".toList, (kindName k).toList, intText n] := by
    have e : numLine ("USE " ++ kindName k) n = "USE".toList ++ ' ' :: ((kindName k).toList ++ ' ' :: intText n) := by
      unfold numLine; rw [String.toList_append]
      have : "USE ".toList = "USE".toList ++ [' '] := by decide
      rw [this]; simp
    rw [e]; exact words3 (by decide) (by decide) h1 h2 n
  have hne : "USE".toList ≠ "SAVE".toList := by decide
  unfold parse
  rw [hw]
  simp only [int_intText h, Option.bind_some, h3, hne, if_false, if_true, h4, Option.map_some]

theorem parse_save (rd : Text → Option Rat) (k : Kind) {n : Int} (h : IntOk n) :
    parse rd (numLine ("SAVE " ++ kindName k) n) = some (.save k n) := by
  obtain ⟨h1, h2, h3, h4, h5⟩ := kind_word k
  have hw : words (numLine ("SAVE " ++ kindName k) n) = ["SAVE".toList, (kindName k).toList, intText n] := by
    have e : numLine ("SAVE " ++ kindName k) n = "SAVE".toList ++ ' ' :: ((kindName k).toList ++ ' ' :: intText n) := by
      unfold numLine; rw [String.toList_append]
      have : "SAVE ".toList = "SAVE".toList ++ [' '] := by decide
      rw [this]; simp
    rw [e]; exact words3 (by decide) (by decide) h1 h2 n
  unfold parse
  rw [hw]
  simp only [int_intText h, Option.bind_some, h3, h5, if_false, if_true, h4, Option.map_some]

/-- Lines and what they mean. -/
abbrev Means (rd : Text → Option Rat) (ls : List Text) (cs : List Cmd) : Prop :=
  List.Forall₂ (fun l c => parse rd l = some c) ls cs

theorem means_mapM {rd : Text → Option Rat} {ls : List Text} {cs : List Cmd} (h : Means rd ls cs) : ls.mapM (parse rd) = some cs := by
  induction h with
  | nil => rfl
  | cons h1 h2 ih => rw [List.mapM_cons, h1, ih]; rfl

theorem means_append {rd : Text → Option Rat} {l1 l2 : List Text} {c1 c2 : List Cmd} (h1 : Means rd l1 c1) (h2 : Means rd l2 c2) :
    Means rd (l1 ++ l2) (c1 ++ c2) := by
  induction h1 with
  | nil => exact h2
  | cons h _ ih => exact .cons h ih

/-- The commands of `mixLines`. -/
def mixCmds (near : Rat → Rat) (rq : Request) (factor : Rat) : List Cmd :=
  .mix :: (rq.mix.map fun c => .comp c.1 (near (fracOut (evap rq.mix) factor c.2))) ++ [.saveSol rq.sol, .copySol rq.sol rq.cons, .fin]

/-- The commands of a block. -/
def blockCmds (st : Store) (rq : Request) (k : Kind) : List Cmd :=
  if 0 ≤ rq.user k ∧ entityExists st k (rq.user k) = true then
    .use k (rq.user k) :: (if saved k then [.save k (rq.user k)] else []) else []

/-- The commands of `reactLines`. -/
def reactCmds (near : Rat → Rat) (st : Store) (rq : Request) : List Cmd :=
  [.mix, .comp rq.sol (near rq.fill), .saveSol rq.sol] ++ (blocks.flatMap fun k => blockCmds st rq k) ++
    [.fin, .mix, .comp rq.sol (near (1 / rq.fill)), .saveSol rq.sol, .fin]

theorem means_mix {num : Rat → Text} {rd : Text → Option Rat} {near : Rat → Rat} (hn : NumOk num rd near) (rq : Request)
    (factor : Rat) (hm : ∀ c ∈ rq.mix, IntOk c.1) (hs : IntOk rq.sol) (hc : IntOk rq.cons) :
    Means rd (mixLines num rq factor) (mixCmds near rq factor) := by
  unfold mixLines mixCmds
  refine means_append (.cons (parse_mix rd) ?_) (.cons (parse_saveSol rd hs) (.cons (parse_copy rd hs hc) (.cons (parse_end rd) .nil)))
  generalize evap rq.mix = ev
  revert hm
  generalize rq.mix = l
  intro hm
  induction l with
  | nil => exact .nil
  | cons c l ih =>
    exact .cons (parse_comp hn (hm c (by simp)) _) (ih fun d hd => hm d (List.mem_cons_of_mem _ hd))

theorem means_block {rd : Text → Option Rat} (st : Store) (rq : Request) (k : Kind) (h : IntOk (rq.user k)) :
    Means rd (block st rq k).1 (blockCmds st rq k) := by
  unfold block blockCmds
  by_cases h0 : 0 ≤ rq.user k
  · by_cases h1 : entityExists st k (rq.user k) = true
    · have hc : 0 ≤ rq.user k ∧ entityExists st k (rq.user k) = true := ⟨h0, h1⟩
      rw [if_pos h0, if_pos h1, if_pos hc]
      refine .cons (parse_use rd k h) ?_
      by_cases hs : saved k = true
      · rw [if_pos hs, if_pos hs]; exact .cons (parse_save rd k h) .nil
      · rw [if_neg hs, if_neg hs]; exact .nil
    · rw [if_pos h0, if_neg h1, if_neg (fun h => h1 h.2)]; exact .nil
  · rw [if_neg h0, if_neg (fun h => h0 h.1)]; exact .nil

theorem means_react {num : Rat → Text} {rd : Text → Option Rat} {near : Rat → Rat} (hn : NumOk num rd near) (st : Store)
    (rq : Request) (hs : IntOk rq.sol) (hu : ∀ k, IntOk (rq.user k)) :
    Means rd (reactLines num st rq) (reactCmds near st rq) := by
  unfold reactLines reactCmds
  refine means_append (means_append (.cons (parse_mix rd) (.cons (parse_comp hn hs _) (.cons (parse_saveSol rd hs) .nil))) ?_)
    (.cons (parse_end rd) (.cons (parse_mix rd) (.cons (parse_comp hn hs _) (.cons (parse_saveSol rd hs) (.cons (parse_end rd) .nil)))))
  generalize blocks = l
  induction l with
  | nil => exact .nil
  | cons k l ih =>
    rw [List.flatMap_cons, List.flatMap_cons]
    exact means_append (means_block st rq k (hu k)) ih

/-! ### Running -/

theorem exec_append {S R} (ch : Chem S R) (cs rest : List Cmd) (hc : ∀ c ∈ cs, c ≠ .fin) (sim : Sim) (w : World S R) :
    exec ch (cs ++ .fin :: rest) sim w = (runSim ch w (cs.foldl Sim.add sim)).bind (exec ch rest {}) := by
  induction cs generalizing sim with
  | nil => rfl
  | cons c cs ih =>
    have h1 := hc c (by simp)
    have h2 := ih (fun d hd => hc d (List.mem_cons_of_mem _ hd)) (sim.add c)
    rw [List.cons_append, List.foldl_cons, ← h2]
    cases c <;> first | rfl | exact absurd rfl h1

theorem sim_comps (l : List (Int × Rat)) (f : Int × Rat → Rat) (sim : Sim) :
    (l.map fun c => Cmd.comp c.1 (f c)).foldl Sim.add sim = { sim with mix := sim.mix ++ l.map fun c => (c.1, f c) } := by
  induction l generalizing sim with
  | nil => simp
  | cons c l ih => rw [List.map_cons, List.foldl_cons, ih]; simp [Sim.add]

theorem mapM_forall₂ {α β : Type} {f : α → Option β} {l : List α} {r : List β} (h : List.Forall₂ (fun a b => f a = some b) l r) :
    l.mapM f = some r := by
  induction h with
  | nil => rfl
  | cons h1 h2 ih => rw [List.mapM_cons, h1, ih]; rfl

/-- The uses and saves of the blocks. -/
def useList (st : Store) (rq : Request) (ks : List Kind) : List (Kind × Int) :=
  (ks.filter fun k => decide (0 ≤ rq.user k ∧ entityExists st k (rq.user k) = true)).map fun k => (k, rq.user k)

def saveList (st : Store) (rq : Request) (ks : List Kind) : List (Kind × Int) :=
  (ks.filter fun k => decide ((0 ≤ rq.user k ∧ entityExists st k (rq.user k) = true) ∧ saved k = true)).map fun k => (k, rq.user k)

theorem sim_blocks (st : Store) (rq : Request) (ks : List Kind) (sim : Sim) :
    (ks.flatMap fun k => blockCmds st rq k).foldl Sim.add sim =
      { sim with uses := sim.uses ++ useList st rq ks, saves := sim.saves ++ saveList st rq ks } := by
  induction ks generalizing sim with
  | nil => simp [useList, saveList]
  | cons k ks ih =>
    rw [List.flatMap_cons, List.foldl_append, ih]
    unfold blockCmds useList saveList
    by_cases h : 0 ≤ rq.user k ∧ entityExists st k (rq.user k) = true
    · rw [if_pos h]
      by_cases hs : saved k = true
      · rw [if_pos hs, List.filter_cons_of_pos (by simpa using h), List.filter_cons_of_pos (by simp only [decide_eq_true_eq]; exact ⟨h, hs⟩)]
        simp [Sim.add]
      · rw [if_neg hs, List.filter_cons_of_pos (by simpa using h), List.filter_cons_of_neg (by simp only [decide_eq_true_eq]; exact fun e => hs e.2)]
        simp [Sim.add]
    · rw [if_neg h, List.filter_cons_of_neg (by simpa using h), List.filter_cons_of_neg (by simp only [decide_eq_true_eq]; exact fun e => h e.1)]
      simp

theorem blockCmds_ne (st : Store) (rq : Request) (ks : List Kind) : ∀ c ∈ ks.flatMap (fun k => blockCmds st rq k), c ≠ .fin := by
  intro c hc
  obtain ⟨k, _, hk⟩ := List.mem_flatMap.1 hc
  unfold blockCmds at hk
  split at hk
  · rcases List.mem_cons.1 hk with hk | hk
    · rw [hk]; simp
    · split at hk
      · simp only [List.mem_singleton] at hk; rw [hk]; simp
      · simp at hk
  · simp at hk

theorem foldl_setEnt {S R} (f : Kind → R) (l : List (Kind × Int)) (w : World S R) :
    (l.foldl (fun w kn => w.setEnt kn.1 kn.2 (f kn.1)) w).sol = w.sol ∧
    ∀ k n, (l.foldl (fun w kn => w.setEnt kn.1 kn.2 (f kn.1)) w).ent k n = if (k, n) ∈ l then some (f k) else w.ent k n := by
  induction l generalizing w with
  | nil => simp
  | cons p l ih =>
    rw [List.foldl_cons]
    obtain ⟨h1, h2⟩ := ih (w.setEnt p.1 p.2 (f p.1))
    refine ⟨h1, fun k n => ?_⟩
    rw [h2]
    obtain ⟨a, b⟩ := p
    by_cases hm : (k, n) ∈ l
    · simp [hm]
    · by_cases hp : k = a ∧ n = b
      · simp [hm, hp, World.setEnt]
      · simp [hm, hp, World.setEnt]

/-! ### The direct changes -/

theorem apply_sol {S R} (ch : Chem S R) (rd : Text → Option Rat) (c : Setting) (w : World S R) : ((engine ch rd).apply c w).sol = w.sol := by
  cases c <;> rfl

theorem applyAll_sol {S R} (ch : Chem S R) (rd : Text → Option Rat) (cs : List Setting) (w : World S R) :
    (cs.foldl (fun w c => (engine ch rd).apply c w) w).sol = w.sol := by
  induction cs generalizing w with
  | nil => rfl
  | cons c cs ih => rw [List.foldl_cons, ih, apply_sol]

/-- What a request sets directly. -/
def setOf {S R} (ch : Chem S R) (rq : Request) (k : Kind) (r : R) : R :=
  match k with
  | .reaction => ch.set (.moles (rq.user .reaction) (rq.rxnmols * rq.fill)) r
  | .kinetics => ch.set (.time (rq.user .kinetics) rq.tsec) r
  | .temperature => ch.set (.temp (rq.user .temperature) rq.tempc) r
  | _ => r

theorem applyBlock {S R} (ch : Chem S R) (rd : Text → Option Rat) (rq : Request) (st : Store) (k : Kind) (w : World S R) :
    ∀ k' n, ((block st rq k).2.2.foldl (fun w c => (engine ch rd).apply c w) w).ent k' n =
      if (0 ≤ rq.user k ∧ entityExists st k (rq.user k) = true) ∧ k' = k ∧ n = rq.user k then (w.ent k' n).map (setOf ch rq k) else w.ent k' n := by
  intro k' n
  unfold block
  by_cases h0 : 0 ≤ rq.user k
  · by_cases h1 : entityExists st k (rq.user k) = true
    · rw [if_pos h0, if_pos h1]
      simp only [h0, h1, and_self, true_and]
      have hid : (if k' = k ∧ n = rq.user k then (w.ent k' n).map (fun r => r) else w.ent k' n) = w.ent k' n := by simp
      cases k <;> first | rfl | exact hid.symm
    · rw [if_pos h0, if_neg h1, if_neg (fun h => h1 h.1.2)]; rfl
  · rw [if_neg h0, if_neg (fun h => h0 h.1.1)]; rfl

theorem applyBlocks {S R} (ch : Chem S R) (rd : Text → Option Rat) (rq : Request) (st : Store) (ks : List Kind) (hnd : ks.Nodup) (w : World S R) :
    ∀ k n, ((ks.flatMap fun k => (block st rq k).2.2).foldl (fun w c => (engine ch rd).apply c w) w).ent k n =
      if k ∈ ks ∧ (0 ≤ rq.user k ∧ entityExists st k (rq.user k) = true) ∧ n = rq.user k then (w.ent k n).map (setOf ch rq k) else w.ent k n := by
  induction ks generalizing w with
  | nil => intro k n; simp
  | cons a ks ih =>
    intro k n
    obtain ⟨hna, hnd'⟩ := List.nodup_cons.1 hnd
    rw [List.flatMap_cons, List.foldl_append, ih hnd', applyBlock]
    by_cases hka : k = a
    · subst hka
      have : ¬ (k ∈ ks ∧ (0 ≤ rq.user k ∧ entityExists st k (rq.user k) = true) ∧ n = rq.user k) := fun h => hna h.1
      rw [if_neg this]
      by_cases hc : (0 ≤ rq.user k ∧ entityExists st k (rq.user k) = true) ∧ n = rq.user k
      · rw [if_pos ⟨hc.1, rfl, hc.2⟩, if_pos ⟨by simp, hc⟩]
      · rw [if_neg (fun h => hc ⟨h.1, h.2.2⟩), if_neg (fun h => hc h.2)]
    · have : ¬ ((0 ≤ rq.user a ∧ entityExists st a (rq.user a) = true) ∧ k = a ∧ n = rq.user a) := fun h => hka h.2.1
      rw [if_neg this]
      simp [hka]

theorem reactants_mapM {S R} (ch : Chem S R) (rq : Request) (st : Store) (w w0 : World S R) (ks : List Kind)
    (hex : ∀ k ∈ ks, 0 ≤ rq.user k → entityExists st k (rq.user k) = (w.ent k (rq.user k)).isSome)
    (h0 : ∀ k ∈ ks, 0 ≤ rq.user k → w0.ent k (rq.user k) = (w.ent k (rq.user k)).map (setOf ch rq k)) :
    (useList st rq ks).mapM (fun u => (w0.ent u.1 u.2).map fun r => (u.1, r)) = some (reactants ch w rq ks) := by
  induction ks with
  | nil => rfl
  | cons k ks ih =>
    have ih' := ih (fun a ha => hex a (List.mem_cons_of_mem _ ha)) (fun a ha => h0 a (List.mem_cons_of_mem _ ha))
    have hk := hex k (by simp)
    have hk0 := h0 k (by simp)
    unfold useList at *
    unfold reactants
    by_cases hn : 0 ≤ rq.user k
    · have e := hk hn
      have e0 := hk0 hn
      rw [if_pos hn]
      cases hw : w.ent k (rq.user k) with
      | none =>
        rw [hw] at e
        rw [List.filter_cons_of_neg (by simp [e])]
        exact ih'
      | some r =>
        rw [hw] at e e0
        rw [List.filter_cons_of_pos (by simp [e, hn]), List.map_cons, List.mapM_cons, ih']
        simp only [e0]
        cases k <;> rfl
    · rw [if_neg hn, List.filter_cons_of_neg (by simp [hn])]
      exact ih'

theorem accumulate_clear {W} (s : Inst W) (ls : List Text) (hc : s.clear = true) (hne : ls ≠ []) :
    (accumulate s ls).buf = ls ∧ (accumulate s ls).world = s.world := by
  have gen : ∀ (ls : List Text) (t : Inst W), t.clear = false → (accumulate t ls).buf = t.buf ++ ls ∧ (accumulate t ls).world = t.world := by
    intro ls
    induction ls with
    | nil => intro t _; simp [accumulate]
    | cons l ls ih =>
      intro t ht
      unfold accumulate at *
      rw [List.foldl_cons]
      obtain ⟨h1, h2⟩ := ih { t with buf := (if t.clear then [] else t.buf) ++ [l], clear := false } rfl
      rw [h1, h2]
      simp [ht]
  cases ls with
  | nil => exact absurd rfl hne
  | cons l ls =>
    have : accumulate s (l :: ls) = accumulate { s with buf := [l], clear := false } ls := by
      unfold accumulate; rw [List.foldl_cons]; simp [hc]
    rw [this]
    obtain ⟨h1, h2⟩ := gen ls { s with buf := [l], clear := false } rfl
    exact ⟨by rw [h1]; rfl, h2⟩

theorem sum_nonneg {l : List Rat} (h : ∀ x ∈ l, 0 ≤ x) : 0 ≤ l.sum := by
  induction l with
  | nil => simp
  | cons a l ih =>
    rw [List.sum_cons]
    exact add_nonneg (h a (by simp)) (ih fun x hx => h x (List.mem_cons_of_mem _ hx))

theorem runSim_one {S R} (ch : Chem S R) (w : World S R) (n : Int) (x : Rat) (s : S) (hs : w.sol n = some s)
    (uses : List (Kind × Int)) (us : List (Kind × R)) (hu : uses.mapM (fun u => (w.ent u.1 u.2).map fun r => (u.1, r)) = some us)
    (saves : List (Kind × Int)) :
    runSim ch w { mix := [(n, x)], uses := uses, saveSol := [n], saves := saves, copies := [] } =
      some (saves.foldl (fun w kn => w.setEnt kn.1 kn.2 (ch.after (ch.mix [(s, x)]) us kn.1)) (w.setSol n (ch.react (ch.mix [(s, x)]) us))) := by
  unfold runSim
  rw [if_neg (by simp)]
  have h1 : [(n, x)].mapM (fun c : Int × Rat => (w.sol c.1).map fun s => (s, c.2)) = some [(s, x)] := by
    rw [List.mapM_cons, hs]; rfl
  rw [h1, Option.bind_some, hu]
  rfl

theorem exists_ok {S R} (ch : Chem S R) (rd : Text → Option Rat) (w : World S R) (rq : Request)
    (ht : 0 ≤ rq.user .temperature → (w.ent .temperature (rq.user .temperature)).isSome →
      (w.ent .pressure (rq.user .temperature)).isSome ∧ (w.ent .gasPhase (rq.user .temperature)).isSome) :
    ∀ k ∈ blocks, 0 ≤ rq.user k → entityExists ((engine ch rd).store w) k (rq.user k) = (w.ent k (rq.user k)).isSome := by
  intro k hk h0
  have hst : ∀ k n, ((engine ch rd).store w).has k n = (w.ent k n).isSome := fun _ _ => rfl
  cases k with
  | temperature =>
    unfold entityExists
    simp only [hst]
    cases h : (w.ent .temperature (rq.user .temperature)).isSome with
    | false => simp
    | true =>
      obtain ⟨h1, h2⟩ := ht h0 h
      simp [h1, h2]
  | pressure => simp [blocks] at hk
  | _ => rfl

theorem mem_saveList (st : Store) (rq : Request) (k : Kind) (n : Int) :
    (k, n) ∈ saveList st rq blocks ↔ (n = rq.user k ∧ 0 ≤ n ∧ entityExists st k n = true ∧ saved k = true) := by
  unfold saveList
  simp only [List.mem_map, List.mem_filter, decide_eq_true_eq, Prod.mk.injEq]
  constructor
  · rintro ⟨a, ⟨_, ⟨h1, h2⟩, h3⟩, rfl, rfl⟩
    exact ⟨rfl, h1, h2, h3⟩
  · rintro ⟨rfl, h1, h2, h3⟩
    refine ⟨k, ⟨?_, ⟨h1, h2⟩, h3⟩, rfl, rfl⟩
    cases k <;> simp [saved] at h3 <;> simp [blocks]

theorem any_iff (rq : Request) : (blocks.all fun k => decide (rq.user k < 0)) = true ↔ ¬ anyReactant rq := by
  unfold anyReactant
  rw [List.all_eq_true]
  constructor
  · rintro h ⟨k, h1, h2⟩
    have : k ∈ blocks := by cases k <;> simp [blocks] at * 
    have := h k this
    simp only [decide_eq_true_eq] at this
    omega
  · intro h k hk
    simp only [decide_eq_true_eq]
    by_contra hc
    refine h ⟨k, ?_, by omega⟩
    rintro rfl
    simp [blocks] at hk

theorem runMix_asked {S R} (ch : Chem S R) {num : Rat → Text} {rd : Text → Option Rat} {near : Rat → Rat} (hn : NumOk num rd near)
    (junk : Bool) (rq : Request) (s : Inst (World S R)) (hcl : s.clear = true) (factor : Rat)
    (hf : negFactor ((engine ch rd).store s.world).water rq.mix = some factor) (comps : List (S × Rat))
    (hne : rq.mix ≠ [])
    (hc : List.Forall₂ (fun c x => s.world.sol c.1 = some x.1 ∧ x.2 = near (fracOut (evap rq.mix) factor c.2)) rq.mix comps)
    (hm : ∀ c ∈ rq.mix, IntOk c.1) (hs : IntOk rq.sol) (hco : IntOk rq.cons) (hu : ∀ k, IntOk (rq.user k))
    (ht : 0 ≤ rq.user .temperature → (s.world.ent .temperature (rq.user .temperature)).isSome →
      (s.world.ent .pressure (rq.user .temperature)).isSome ∧ (s.world.ent .gasPhase (rq.user .temperature)).isSome) :
    (runMix (engine ch rd) num junk rq s).1 = 0 ∧
    Asked ch rq comps (near rq.fill) (near (1 / rq.fill)) s.world (runMix (engine ch rd) num junk rq s).2.world := by
  -- the first simulation, for a store with the same solutions
  have sim1 : ∀ (w0 : World S R), w0.sol = s.world.sol → ∀ rest,
      exec ch (mixCmds near rq factor ++ rest) {} w0 =
        exec ch rest {} ((w0.setSol rq.sol (mixture ch comps)).setSol rq.cons (mixture ch comps)) := by
    intro w0 hw0 rest
    have e : mixCmds near rq factor ++ rest =
        (.mix :: (rq.mix.map fun c => .comp c.1 (near (fracOut (evap rq.mix) factor c.2))) ++ [.saveSol rq.sol, .copySol rq.sol rq.cons]) ++ .fin :: rest := by
      unfold mixCmds; simp
    rw [e, exec_append]
    · have hsim : (Cmd.mix :: (rq.mix.map fun (c : Int × Rat) => Cmd.comp c.1 (near (fracOut (evap rq.mix) factor c.2))) ++ [Cmd.saveSol rq.sol, Cmd.copySol rq.sol rq.cons]).foldl Sim.add {} =
          { mix := rq.mix.map fun (c : Int × Rat) => (c.1, near (fracOut (evap rq.mix) factor c.2)), saveSol := [rq.sol], copies := [(rq.sol, rq.cons)] } := by
        rw [List.foldl_append, List.foldl_cons (b := ({} : Sim)), sim_comps rq.mix (fun c => near (fracOut (evap rq.mix) factor c.2))]
        rfl
      rw [hsim]
      have hmap : (rq.mix.map fun c => (c.1, near (fracOut (evap rq.mix) factor c.2))).mapM (fun c => (w0.sol c.1).map fun s => (s, c.2)) = some comps := by
        rw [List.mapM_map]
        apply mapM_forall₂
        rw [hw0]
        refine hc.imp ?_
        intro a b ⟨h1, h2⟩
        rw [Function.comp_apply]
        dsimp only
        rw [h1, ← h2]; rfl
      unfold runSim
      rw [if_neg (by simpa using hne), hmap]
      have hcopy : ((w0.setSol rq.sol (mixture ch comps)).copySol rq.sol rq.cons) = (w0.setSol rq.sol (mixture ch comps)).setSol rq.cons (mixture ch comps) := by
        unfold World.copySol
        have : (w0.setSol rq.sol (mixture ch comps)).sol rq.sol = some (mixture ch comps) := by simp [World.setSol]
        rw [this]
      rw [← hcopy]
      rfl
    · intro c hc
      simp only [List.cons_append, List.mem_cons, List.mem_append, List.mem_map, List.not_mem_nil, or_false] at hc
      rcases hc with rfl | ⟨a, _, rfl⟩ | rfl | rfl <;> simp
  have hex := exists_ok ch rd s.world rq ht
  unfold runMix
  simp only
  unfold preMix
  rw [hf]
  dsimp only
  by_cases hall : (blocks.all fun k => decide (rq.user k < 0)) = true
  · rw [if_pos hall]
    dsimp only
    have hno := (any_iff rq).1 hall
    obtain ⟨hb1, hb2⟩ := accumulate_clear { s with world := [].foldl (fun w c => (engine ch rd).apply c w) s.world } (mixLines num rq factor) hcl (by unfold mixLines; simp)
    rw [hb1, hb2]
    have hrun : (engine ch rd).run (mixLines num rq factor) s.world =
        (0, (s.world.setSol rq.sol (mixture ch comps)).setSol rq.cons (mixture ch comps)) := by
      change runLines ch rd _ _ = _
      unfold runLines
      rw [means_mapM (means_mix hn rq factor hm hs hco), Option.bind_some]
      have := sim1 s.world rfl []
      rw [List.append_nil] at this
      rw [this]; rfl
    simp only [List.foldl_nil]
    rw [hrun]
    refine ⟨rfl, ?_, ?_, ?_, ?_⟩
    · intro _; simp [World.setSol]
    · intro _
      refine ⟨?_, rfl⟩
      simp [World.setSol]
    · intro h; exact absurd h hno
    · intro n h1 h2; simp [World.setSol, h1, h2]
  · rw [if_neg hall]
    dsimp only
    have hany : anyReactant rq := by
      by_contra h; exact hall ((any_iff rq).2 h)
    generalize hw0 : (blocks.flatMap fun k => (block ((engine ch rd).store s.world) rq k).2.2).foldl (fun w c => (engine ch rd).apply c w) s.world = w0
    have hsol : w0.sol = s.world.sol := by rw [← hw0]; exact applyAll_sol ch rd _ _
    have hent := applyBlocks ch rd rq ((engine ch rd).store s.world) blocks (by decide) s.world
    rw [hw0] at hent
    obtain ⟨hb1, hb2⟩ := accumulate_clear { s with world := w0 } (mixLines num rq factor ++ reactLines num ((engine ch rd).store s.world) rq) hcl (by unfold mixLines; simp)
    rw [hb1, hb2]
    -- entities set directly
    have hset : ∀ k ∈ blocks, 0 ≤ rq.user k → w0.ent k (rq.user k) = (s.world.ent k (rq.user k)).map (setOf ch rq k) := by
      intro k hk h0
      rw [hent]
      by_cases hx : entityExists ((engine ch rd).store s.world) k (rq.user k) = true
      · rw [if_pos ⟨hk, ⟨h0, hx⟩, rfl⟩]
      · rw [if_neg (fun h => hx h.2.1.2)]
        rw [hex k hk h0] at hx
        cases hw : s.world.ent k (rq.user k) with
        | none => rfl
        | some r => rw [hw] at hx; simp at hx
    have husm := reactants_mapM ch rq ((engine ch rd).store s.world) s.world w0 blocks hex hset
    generalize hw1 : (w0.setSol rq.sol (mixture ch comps)).setSol rq.cons (mixture ch comps) = w1
    have hw1e : w1.ent = w0.ent := by rw [← hw1]; rfl
    have hw1s : w1.sol rq.sol = some (mixture ch comps) := by rw [← hw1]; simp [World.setSol]
    have husm1 : (useList ((engine ch rd).store s.world) rq blocks).mapM (fun u => (w1.ent u.1 u.2).map fun r => (u.1, r)) = some (reactants ch s.world rq blocks) := by
      rw [hw1e]; exact husm
    have h2 := runSim_one ch w1 rq.sol (near rq.fill) _ hw1s _ _ husm1 (saveList ((engine ch rd).store s.world) rq blocks)
    obtain ⟨hfe1, hfe2⟩ := foldl_setEnt (S := S) (ch.after (ch.mix [(mixture ch comps, near rq.fill)]) (reactants ch s.world rq blocks))
      (saveList ((engine ch rd).store s.world) rq blocks)
      (w1.setSol rq.sol (ch.react (ch.mix [(mixture ch comps, near rq.fill)]) (reactants ch s.world rq blocks)))
    generalize hw2 : (saveList ((engine ch rd).store s.world) rq blocks).foldl (fun w kn => w.setEnt kn.1 kn.2 (ch.after (ch.mix [(mixture ch comps, near rq.fill)]) (reactants ch s.world rq blocks) kn.1))
      (w1.setSol rq.sol (ch.react (ch.mix [(mixture ch comps, near rq.fill)]) (reactants ch s.world rq blocks))) = w2 at h2 hfe1 hfe2
    have hw2s : w2.sol rq.sol = some (ch.react (ch.mix [(mixture ch comps, near rq.fill)]) (reactants ch s.world rq blocks)) := by
      rw [hfe1]; simp [World.setSol]
    have h3 := runSim_one ch w2 rq.sol (near (1 / rq.fill)) _ hw2s [] [] rfl []
    have hrun : (engine ch rd).run (mixLines num rq factor ++ reactLines num ((engine ch rd).store s.world) rq) w0 =
        (0, w2.setSol rq.sol (ch.react (ch.mix [(ch.react (ch.mix [(mixture ch comps, near rq.fill)]) (reactants ch s.world rq blocks), near (1 / rq.fill))]) [])) := by
      change runLines ch rd _ _ = _
      unfold runLines
      rw [means_mapM (means_append (means_mix hn rq factor hm hs hco) (means_react hn _ rq hs hu)), Option.bind_some, sim1 w0 hsol, hw1]
      have e2 : reactCmds near ((engine ch rd).store s.world) rq =
          ([.mix, .comp rq.sol (near rq.fill), .saveSol rq.sol] ++ (blocks.flatMap fun k => blockCmds ((engine ch rd).store s.world) rq k)) ++
          .fin :: ([.mix, .comp rq.sol (near (1 / rq.fill)), .saveSol rq.sol] ++ .fin :: []) := by
        unfold reactCmds; simp
      rw [e2, exec_append]
      · have es : ([Cmd.mix, .comp rq.sol (near rq.fill), .saveSol rq.sol] ++ (blocks.flatMap fun k => blockCmds ((engine ch rd).store s.world) rq k)).foldl Sim.add {} =
            { mix := [(rq.sol, near rq.fill)], uses := useList ((engine ch rd).store s.world) rq blocks, saveSol := [rq.sol],
              saves := saveList ((engine ch rd).store s.world) rq blocks, copies := [] } := by
          rw [List.foldl_append, sim_blocks]; rfl
        rw [es, h2, Option.bind_some, exec_append]
        · have es3 : [Cmd.mix, .comp rq.sol (near (1 / rq.fill)), .saveSol rq.sol].foldl Sim.add {} =
              { mix := [(rq.sol, near (1 / rq.fill))], uses := [], saveSol := [rq.sol], saves := [], copies := [] } := rfl
          rw [es3, h3]; rfl
        · intro c hc; simp at hc; rcases hc with rfl | rfl | rfl <;> simp
      · intro c hc
        rcases List.mem_append.1 hc with hc | hc
        · simp at hc; rcases hc with rfl | rfl | rfl <;> simp
        · exact blockCmds_ne _ _ _ c hc
    rw [hrun]
    refine ⟨rfl, ?_, ?_, ?_, ?_⟩
    · intro hne'
      have : (w2.setSol rq.sol (ch.react (ch.mix [(ch.react (ch.mix [(mixture ch comps, near rq.fill)]) (reactants ch s.world rq blocks), near (1 / rq.fill))]) [])).sol rq.cons = w2.sol rq.cons := by
        simp [World.setSol, hne']
      dsimp only
      rw [this, hfe1, ← hw1]
      simp [World.setSol, hne']
    · intro h; exact absurd hany h
    · intro _
      refine ⟨by simp only [World.setSol, if_true]; rfl, ?_⟩
      intro k n
      have e1 : (w2.setSol rq.sol (ch.react (ch.mix [(ch.react (ch.mix [(mixture ch comps, near rq.fill)]) (reactants ch s.world rq blocks), near (1 / rq.fill))]) [])).ent = w2.ent := rfl
      dsimp only
      rw [e1, hfe2]
      have e2 : (w1.setSol rq.sol (ch.react (ch.mix [(mixture ch comps, near rq.fill)]) (reactants ch s.world rq blocks))).ent = w0.ent := by
        rw [← hw1e]; rfl
      rw [e2]
      by_cases hcond : n = rq.user k ∧ 0 ≤ n ∧ k ≠ .pressure
      · rw [if_pos hcond]
        obtain ⟨rfl, h0, hp⟩ := hcond
        have hk : k ∈ blocks := by cases k <;> simp [blocks] at *
        have e3 := hset k hk h0
        have e4 := hex k hk h0
        have hmem := mem_saveList ((engine ch rd).store s.world) rq k (rq.user k)
        cases hw : s.world.ent k (rq.user k) with
        | none =>
          rw [hw] at e3 e4
          rw [if_neg (by rw [hmem, e4]; simp), e3]; rfl
        | some r =>
          rw [hw] at e3 e4
          by_cases hsv : saved k = true
          · rw [if_pos (hmem.2 ⟨rfl, h0, e4, hsv⟩)]
            cases k <;> first | rfl | (simp [saved] at hsv)
          · rw [if_neg (by rw [hmem]; simp [hsv]), e3]
            cases k <;> first | rfl | (simp [saved] at hsv) | exact absurd rfl hp
      · rw [if_neg hcond, if_neg, hent, if_neg]
        · rintro ⟨h1, ⟨h2, -⟩, h3⟩
          refine hcond ⟨h3, by rw [h3]; exact h2, ?_⟩
          rintro rfl; simp [blocks] at h1
        · rw [mem_saveList]
          rintro ⟨h1, h2, -, h3⟩
          refine hcond ⟨h1, h2, ?_⟩
          rintro rfl; simp [saved] at h3
    · intro n h1 h2
      have : (w2.setSol rq.sol (ch.react (ch.mix [(ch.react (ch.mix [(mixture ch comps, near rq.fill)]) (reactants ch s.world rq blocks), near (1 / rq.fill))]) [])).sol n = w2.sol n := by
        simp [World.setSol, h1]
      dsimp only
      rw [this, hfe1, ← hw1]
      simp [World.setSol, h1, h2, hsol]

end Verif.Mms
