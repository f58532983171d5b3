import Verif.Spec.Basic
import Verif.Model.BasicRun
/-
Vocabulary for C122 and C123: what a list of lines typed in defines; structured BASIC programs, what they mean, and how they are
written on lines.  The meaning (`Task.run`) knows nothing of tokens, lines, places or loop records.
-/
namespace Verif.Basic

/-! ### C122 -/

/-- The tokens that the lines typed in leave for the number `n`: those of the last line with that number. -/
def lastFor (n : Nat) (xs : List Line) : List Tok := ((xs.filter fun x => x.1 = n).getLast?.map Prod.snd).getD []

/-! ### C123: structured programs -/

/-- What stands between two statements: a colon, or a new line with its number. -/
inductive Sep where
  | colon
  | line (n : Nat)
deriving DecidableEq, Repr

/-- A structured program.  `let_` (`kw`: with the word LET), two statements in a row, IF without and with ELSE, FOR (optional STEP;
`named`: the NEXT names the variable), WHILE, GOSUB, SAVE, PUNCH, REM. -/
inductive Stm where
  | rem
  | let_ (kw : Bool) (v : Var) (x : Ex)
  | seq (a : Stm) (s : Sep) (b : Stm)
  | ifThen (c : Ex) (a : Stm)
  | ifElse (c : Ex) (a b : Stm)
  | for_ (v : Var) (x y : Ex) (z : Option Ex) (s₁ : Sep) (body : Stm) (s₂ : Sep) (named : Bool)
  | while_ (c : Ex) (s₁ : Sep) (body : Stm) (s₂ : Sep)
  | gosub (n : Nat)
  | save (x : Ex)
  | punch (x : Ex)
deriving DecidableEq, Repr

/-! #### Meaning -/

/-- The outcome: the final values, an error, or not finished within the number of loop turns and calls allowed. -/
inductive Res where
  | done (e : Env)
  | bad
  | more

/-- One after the other. -/
def Res.bind : Res → (Env → Res) → Res
  | .done e, f => f e
  | .bad, _ => .bad
  | .more, _ => .more

/-- What can be in progress: a statement, or the next turn of a FOR or WHILE loop. -/
inductive Task where
  | stm (s : Stm)
  | turn (v : Var) (last by_ : Rat) (body : Stm)
  | again (c : Ex) (body : Stm)

/-- The value of an expression that has to be a number. -/
def Ex.number (L : Lib) (e : Env) (x : Ex) : Option Rat := (x.val L e).bind Val.number

/-- With this value of the variable the loop is over: it is beyond the last value in the direction of the step (with step 0, if it
differs from the last value). -/
def Over (x last by_ : Rat) : Prop := if 0 < by_ then last < x else if by_ < 0 then x < last else x ≠ last

instance (x last by_ : Rat) : Decidable (Over x last by_) := by unfold Over; infer_instance

/-- The assignment `v = x`: numbers to number variables, strings to string variables. -/
def assign (v : Var) (e : Env) : Val → Res
  | .num r => if v.str then .bad else .done { e with num := fun w => if w = v then r else e.num w }
  | .str s => if v.str then .done { e with str := fun w => if w = v then s else e.str w } else .bad

/-- What a statement does to the variables; `rest` does what is left of a loop or call. -/
def Stm.does (L : Lib) (subs : Nat → Option Stm) (rest : Task → Env → Res) : Stm → Env → Res
  | .rem, e => .done e
  | .let_ _ v x, e => match x.val L e with | none => .bad | some a => assign v e a
  | .seq a _ b, e => (a.does L subs rest e).bind (b.does L subs rest)
  | .ifThen c a, e =>
    match c.number L e with
    | none => .bad
    | some r => if r = 0 then .done e else a.does L subs rest e
  | .ifElse c a b, e =>
    match c.number L e with
    | none => .bad
    | some r => if r = 0 then b.does L subs rest e else a.does L subs rest e
  | .for_ v x y z _ body _ _, e =>
    match x.number L e with
    | none => .bad
    | some first =>
      (assign v e (.num first)).bind fun e =>
        match y.number L e, (z.getD (.num 1)).number L e with
        | some last, some by_ =>
          if Over first last by_ then .done e
          else (body.does L subs rest e).bind (rest (.turn v last by_ body))
        | _, _ => .bad
  | .while_ c _ body _, e =>
    match c.number L e with
    | none => .bad
    | some r => if r = 0 then .done e else (body.does L subs rest e).bind (rest (.again c body))
  | .gosub n, e =>
    match subs n with
    | none => .bad
    | some s => rest (.stm s) e
  | .save x, e => match x.number L e with | none => .bad | some r => .done { e with saved := some r }
  | .punch x, e => match x.val L e with | none => .bad | some a => .done { e with out := e.out ++ [a] }

/-- What a task does within `n` nested loop turns and calls: at the end of a turn of a FOR loop the step is added to the variable and
the next turn begins unless the loop is over; at the end of a turn of a WHILE loop the condition is looked at again. -/
def Task.run (L : Lib) (subs : Nat → Option Stm) : Nat → Task → Env → Res
  | 0, _, _ => .more
  | n + 1, .stm s, e => s.does L subs (Task.run L subs n) e
  | n + 1, .turn v last by_ body, e =>
    (assign v e (.num (e.num v + by_))).bind fun e =>
      if Over (e.num v) last by_ then .done e
      else (body.does L subs (Task.run L subs n) e).bind (Task.run L subs n (.turn v last by_ body))
  | n + 1, .again c body, e =>
    match c.number L e with
    | none => .bad
    | some r =>
      if r = 0 then .done e
      else (body.does L subs (Task.run L subs n) e).bind (Task.run L subs n (.again c body))

/-! #### Text -/

/-- A separator in front of a place. -/
def Sep.put : Sep → Pos → Pos
  | .colon, k => (.colon :: k.1, k.2)
  | .line n, k => ([], (n, k.1) :: k.2)

/-- Tokens in front of a place. -/
def pre (t : List Tok) (k : Pos) : Pos := (t ++ k.1, k.2)

/-- The optional STEP. -/
def stepText : Option Ex → List Tok
  | none => []
  | some z => .step_ :: z.text 0

/-- The statement written in front of the place `k`. -/
def Stm.text : Stm → Pos → Pos
  | .rem, k => pre [.rem] k
  | .let_ kw v x, k => pre ((if kw then [.let_] else []) ++ .var v :: .op .eq :: x.text 0) k
  | .seq a s b, k => a.text (s.put (b.text k))
  | .ifThen c a, k => pre (.if_ :: c.text 0 ++ [.then_]) (a.text k)
  | .ifElse c a b, k => pre (.if_ :: c.text 0 ++ [.then_]) (a.text (pre [.else_] (b.text k)))
  | .for_ v x y z s₁ body s₂ named, k =>
    pre (.for_ :: .var v :: .op .eq :: x.text 0 ++ .to_ :: y.text 0 ++ stepText z)
      (s₁.put (body.text (s₂.put (pre (.next :: if named then [.var v] else []) k))))
  | .while_ c s₁ body s₂, k => pre (.while_ :: c.text 0) (s₁.put (body.text (s₂.put (pre [.wend] k))))
  | .gosub n, k => pre [.gosub, .num n] k
  | .save x, k => pre (.save :: x.text 0) k
  | .punch x, k => pre (.punch :: x.text 0) k

/-! #### Which texts say what they seem to say -/

/-- The statement reaches to the end of its line: it is or ends with an IF or a REM. -/
def Stm.open : Stm → Bool
  | .rem => true
  | .ifThen _ _ => true
  | .ifElse _ _ _ => true
  | .seq _ _ b => b.open
  | _ => false

/-- The statement ends with an IF without ELSE, so that a following ELSE would be taken for its own, or with a REM, of which it
would become a part. -/
def Stm.dangles : Stm → Bool
  | .rem => true
  | .ifThen _ _ => true
  | .ifElse _ _ b => b.dangles
  | .seq _ _ b => b.dangles
  | _ => false

/-- The statement fits on one line. -/
def Stm.inline : Stm → Bool
  | .seq a s b => s = .colon && a.inline && b.inline
  | .ifThen _ a => a.inline
  | .ifElse _ a b => a.inline && b.inline
  | .for_ _ _ _ _ s₁ body s₂ _ => s₁ = .colon && s₂ = .colon && body.inline
  | .while_ _ s₁ body s₂ => s₁ = .colon && s₂ = .colon && body.inline
  | _ => true

/-- The statement contains a loop of the variable `v` whose NEXT does not name it. -/
def Stm.unnamed (v : Var) : Stm → Bool
  | .seq a _ b => a.unnamed v || b.unnamed v
  | .ifThen _ a => a.unnamed v
  | .ifElse _ a b => a.unnamed v || b.unnamed v
  | .for_ w _ _ _ _ body _ named => (w = v && !named) || body.unnamed v
  | .while_ _ _ body _ => body.unnamed v
  | _ => false

/-- After the statement a new line begins if it needs one. -/
def Stm.sepOk (a : Stm) (s : Sep) : Bool := !a.open || s ≠ .colon

/-- The structured program can be told from its text: an IF ends its line, its branches are on that line, the branch before ELSE does
not end with an IF without ELSE, loop variables are numbers, a loop of a variable contains no loop of the same variable with
an unnamed NEXT, and every GOSUB goes to a known subroutine. -/
def Stm.clear (subs : Nat → Option Stm) : Stm → Bool
  | .seq a s b => a.clear subs && b.clear subs && a.sepOk s
  | .ifThen _ a => a.clear subs && a.inline
  | .ifElse _ a b => a.clear subs && b.clear subs && a.inline && b.inline && !a.dangles
  | .for_ v _ _ _ _ body s₂ _ => body.clear subs && !v.str && body.sepOk s₂ && !body.unnamed v
  | .while_ _ _ body s₂ => body.clear subs && body.sepOk s₂
  | .gosub n => (subs n).isSome
  | _ => true

/-- The program `p` consists of the main part, then END or nothing, and subroutines that end with RETURN (at the lines `subs`
says). -/
structure Layout (p : List Line) (main : Stm) (subs : Nat → Option Stm) : Prop where
  main : main.clear subs = true ∧ ∃ n t m k, p = (n, t) :: m ∧ main.text k = (t, m) ∧
    (k = ([], []) ∨ ∃ s q, main.sepOk s = true ∧ k = s.put (pre [.end_] q))
  subs : ∀ n b, subs n = some b → b.clear subs = true ∧
    ∃ s k, b.sepOk s = true ∧ findline n p = some (b.text (s.put (pre [.ret] k)))

end Verif.Basic
