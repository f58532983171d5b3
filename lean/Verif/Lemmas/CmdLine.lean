import Verif.Spec.CmdLine
/-
Lemmas for C95 and C96.
-/
namespace Verif.CmdLine
open Verif.CText

/-- What one option does. -/
def apply (a : Args) : Opt → Args
  | .file f => { a with control := f }
  | .control f => { a with control := f }
  | .env f => { a with env := some f }
  | .flag .batch => { a with batch := true }
  | .flag .esp => { a with esp := true }
  | .flag .rosenbrock => { a with rosenbrock := true }
  | .flag .print => { a with print := true }
  | .flag .period => { a with period := true }
  | .flag .graph => { a with graph := true }
  | .set n v => { a with sets := a.sets ++ [(n, v)] }

theorem starts_no_dash {f : Text} (h : f.head? ≠ some '-') (p : String) (q : List Char)
    (hp : p.toList = '-' :: q) : starts p f = false := by
  unfold starts
  rw [hp]
  cases f with
  | nil => rfl
  | cons c f =>
    have : c ≠ '-' := by simpa using h
    simp only [List.isPrefixOf, Bool.and_eq_false_imp, beq_iff_eq]
    intro h; exact absurd h.symm this

theorem classify_file (f : Text) (h : f.head? ≠ some '-') : classify f = .control f := by
  have h0 : f ≠ "-debug".toList := by rintro rfl; exact h rfl
  rw [classify, if_neg h0, starts_no_dash h "-C" ['C'] rfl, starts_no_dash h "-E" ['E'] rfl,
    starts_no_dash h "-batch" _ rfl, starts_no_dash h "-esp" _ rfl, starts_no_dash h "-rosenbrock" _ rfl,
    starts_no_dash h "-print" _ rfl, starts_no_dash h "-por" _ rfl, starts_no_dash h "-rtg" _ rfl,
    starts_no_dash h "-set" _ rfl]
  rfl

theorem classify_control (f : Text) : classify ("-C".toList ++ f) = .control f := by
  have h0 : "-C".toList ++ f ≠ "-debug".toList := by
    intro e; have := congrArg (fun l => l[1]?) e; revert this; simp
  rw [classify, if_neg h0]
  simp [starts]

theorem classify_env (f : Text) : classify ("-E".toList ++ f) = .env f := by
  have h0 : "-E".toList ++ f ≠ "-debug".toList := by
    intro e; have := congrArg (fun l => l[1]?) e; revert this; simp
  rw [classify, if_neg h0]
  simp [starts]

theorem classify_set : classify "-set".toList = .set := by decide +kernel
theorem classify_debug : classify "-debug".toList = .debug := by decide +kernel

theorem parse_cons (a : Args) (x : Text) (r : List Text) : parse a (x :: r) =
    match classify x with
    | .debug => if r = [] then none else parse { a with debug := atoi (r.headD []) } r
    | .control f => parse { a with control := f } r
    | .env f => parse { a with env := some f } r
    | .batch => parse { a with batch := true } r
    | .esp => parse { a with esp := true } r
    | .rosenbrock => parse { a with rosenbrock := true } r
    | .print => parse { a with print := true } r
    | .period => parse { a with period := true } r
    | .graph => parse { a with graph := true } r
    | .set =>
      match r with
      | n :: v :: r' => if a.sets.length < 100 then parse { a with sets := a.sets ++ [(n, v)] } r' else none
      | _ => none := by
  cases hx : classify x <;> rw [parse.eq_def] <;> simp only [hx]
  rcases r with _ | ⟨n, _ | ⟨v, r⟩⟩ <;> rfl

theorem parse_opt (a : Args) (o : Opt) (r : List Text) (h : o.Ok)
    (hs : o.setting? ≠ none → a.sets.length < 100) : parse a (o.words ++ r) = parse (apply a o) r := by
  cases o with
  | file f =>
    simp only [Opt.words, List.cons_append, List.nil_append, parse_cons, classify_file f h, apply]
  | control f =>
    simp only [Opt.words, List.cons_append, List.nil_append, parse_cons, classify_control, apply]
  | env f =>
    simp only [Opt.words, List.cons_append, List.nil_append, parse_cons, classify_env, apply]
  | flag f =>
    cases f
    · have e : classify (Flag.text .batch) = .batch := by decide +kernel
      simp only [Opt.words, List.cons_append, List.nil_append, parse_cons, e, apply]
    · have e : classify (Flag.text .esp) = .esp := by decide +kernel
      simp only [Opt.words, List.cons_append, List.nil_append, parse_cons, e, apply]
    · have e : classify (Flag.text .rosenbrock) = .rosenbrock := by decide +kernel
      simp only [Opt.words, List.cons_append, List.nil_append, parse_cons, e, apply]
    · have e : classify (Flag.text .print) = .print := by decide +kernel
      simp only [Opt.words, List.cons_append, List.nil_append, parse_cons, e, apply]
    · have e : classify (Flag.text .period) = .period := by decide +kernel
      simp only [Opt.words, List.cons_append, List.nil_append, parse_cons, e, apply]
    · have e : classify (Flag.text .graph) = .graph := by decide +kernel
      simp only [Opt.words, List.cons_append, List.nil_append, parse_cons, e, apply]
  | set n v =>
    have := hs (by simp [Opt.setting?])
    simp only [Opt.words, List.cons_append, List.nil_append, parse_cons, classify_set, apply, if_pos this]

theorem parse_opts (opts : List Opt) (r : List Text) (h : ∀ o ∈ opts, o.Ok) : ∀ a : Args,
    a.sets.length + (opts.filterMap Opt.setting?).length ≤ 100 →
    parse a (words opts ++ r) = parse (opts.foldl apply a) r := by
  induction opts with
  | nil => intro a _; rfl
  | cons o opts ih =>
    intro a ha
    have e : words (o :: opts) ++ r = o.words ++ (words opts ++ r) := by simp [words]
    rw [e, parse_opt a o _ (h o (by simp))]
    · rw [ih (fun o ho => h o (by simp [ho]))]
      · rfl
      · cases o with
        | flag f => cases f <;> simpa [apply, Opt.setting?, List.filterMap_cons] using ha
        | set n v => simp [apply, List.filterMap_cons, Opt.setting?, List.filterMap_cons] at ha ⊢; omega
        | _ => simpa [apply, Opt.setting?, List.filterMap_cons] using ha
    · intro hs
      cases o <;> simp [Opt.setting?, List.filterMap_cons] at hs ha
      omega

theorem getLast?_cons_getD {α} (x : α) (l : List α) (d : α) : ((x :: l).getLast?).getD d = (l.getLast?).getD x := by
  cases l <;> simp [List.getLast?_cons]

/-- Options applied to any state. -/
theorem fold_means (opts : List Opt) : ∀ a : Args,
    (opts.foldl apply a).control = ((opts.filterMap Opt.controlFile?).getLast?).getD a.control ∧
    (opts.foldl apply a).env = ((opts.filterMap Opt.envFile?).getLast?).or a.env ∧
    (opts.foldl apply a).sets = a.sets ++ opts.filterMap Opt.setting? ∧
    (∀ f, (opts.foldl apply a).has f = true ↔ (a.has f = true ∨ Opt.flag f ∈ opts)) ∧
    (opts.foldl apply a).debug = a.debug := by
  induction opts with
  | nil => intro a; simp
  | cons o opts ih =>
    intro a
    obtain ⟨h1, h2, h3, h4, h5⟩ := ih (apply a o)
    rw [List.foldl_cons]
    refine ⟨?_, ?_, ?_, ?_, ?_⟩
    · rw [h1]
      cases o with
      | flag f => cases f <;> simp [apply, List.filterMap_cons, Opt.controlFile?]
      | file f => simp [apply, List.filterMap_cons, Opt.controlFile?, List.getLast?_cons]
      | control f => simp [apply, List.filterMap_cons, Opt.controlFile?, List.getLast?_cons]
      | env f => simp [apply, List.filterMap_cons, Opt.controlFile?]
      | set n v => simp [apply, List.filterMap_cons, Opt.controlFile?]
    · rw [h2]
      cases o with
      | flag f => cases f <;> simp [apply, List.filterMap_cons, Opt.envFile?]
      | env f =>
        simp only [apply, Opt.envFile?, List.filterMap_cons, List.getLast?_cons]
        cases (opts.filterMap Opt.envFile?).getLast? <;> rfl
      | _ => simp [apply, List.filterMap_cons, Opt.envFile?]
    · rw [h3]
      cases o with
      | flag f => cases f <;> simp [apply, List.filterMap_cons, Opt.setting?]
      | _ => simp [apply, List.filterMap_cons, Opt.setting?]
    · intro f
      rw [h4]
      cases o with
      | flag g => cases f <;> cases g <;> simp [apply, Args.has]
      | _ => cases f <;> simp [apply, Args.has]
    · rw [h5]
      cases o with
      | flag f => cases f <;> rfl
      | _ => rfl

end Verif.CmdLine
