import Mathlib.Data.Rat.Defs
import Mathlib.Algebra.Order.Field.Rat
import Mathlib.Algebra.Order.Group.Unbundled.Abs
/-
Equations between time series of TSPROC: tsproc-trunk/tsproc-master/src/tsp_equation_parser.F90 (P).

Simplifications: numbers are rational; the text of a term is replaced by its kind, which the code recognises by its first letters, and the
value of a number in `rterm` is kept with its term.  The functions but `abs`, and powers, are parameters.  There is no limit to the number
of terms.  GETNEXT, which cuts the text into terms, and the replacement of names of series by values are left out: the terms of an equation
are given as GETNEXT cuts them, with the values of numbers and of series.
-/
namespace Verif.TspEq

/-- The operators, `operat(1:5)`, tsp_data_structures.F90:239, in this order. -/
inductive Op | pow | div | mul | sub | add
deriving DecidableEq, Repr

/-- Terms of an equation: numbers (`~!~`), operators, brackets, beginning (`~#str_`) and end (`~#fin_`) of functions. -/
inductive Tok
  | num (x : Rat)
  | op (o : Op)
  | lp
  | rp
  | fn (k : Nat)
  | fin
deriving DecidableEq, Repr

/-- What the equations take from the Fortran library: the functions 2 to 14 of `funct`, with their range, and powers. -/
structure Lib where
  fn : Nat → Rat → Option Rat
  pow : Rat → Rat → Rat

/-- FUNCEVAL, P:968-1051; `none` if the argument is out of range. -/
def funcEval (L : Lib) (k : Nat) (x : Rat) : Option Rat :=
  if k = 1 then some |x| else if k = 15 then some (-x) else if k = 16 then some x else L.fn k x

/-- The operations of P:911-939. -/
def operate (L : Lib) : Op → Rat → Rat → Option Rat
  | .pow, x, y => if x < 0 ∧ y.den ≠ 1 then none else some (L.pow x y)
  | .mul, x, y => some (x * y)
  | .div, x, y => if y = 0 then none else some (x / y)
  | .add, x, y => some (x + y)
  | .sub, x, y => some (x - y)

/-- Brackets around one term are removed, P:842-853: the first ones, with the terms that are left. -/
def unbracket : List Tok → Option (List Tok)
  | .lp :: t :: .rp :: r => some (t :: r)
  | t :: r => (unbracket r).map (t :: ·)
  | [] => none

/-- The first function of one term is evaluated, P:857-880.  `none` if there is none; an error is `some none`.  (A term that is no number
would be taken with the value that `rterm` has at its place; here an error.) -/
def call (L : Lib) : List Tok → Option (Option (List Tok))
  | .fn k :: t :: .fin :: r =>
    some (match t with
      | .num x => (funcEval L k x).map (.num · :: r)
      | _ => none)
  | t :: r => (call L r).map (·.map (t :: ·))
  | [] => none

/-- The ranks of the terms, P:884-908: the level of nesting of an operator, -1 of a number, 0 of others. -/
def rank : Int → List Tok → List (Tok × Int)
  | _, [] => []
  | c, .lp :: r => (.lp, 0) :: rank (c + 1) r
  | c, .rp :: r => (.rp, 0) :: rank (c - 1) r
  | c, .fn k :: r => (.fn k, 0) :: rank (c + 1) r
  | c, .fin :: r => (.fin, 0) :: rank (c - 1) r
  | c, .op o :: r => (.op o, c) :: rank c r
  | c, .num x :: r => (.num x, -1) :: rank c r

/-- MAXORD, P:884-905. -/
def maxOrd (l : List (Tok × Int)) : Int := l.foldl (fun m t => match t.1 with | .op _ => max m t.2 | _ => m) 0

/-- The operations with the values of two terms, P:917-938. -/
def operateTok (L : Lib) (o : Op) : Tok → Tok → Option Rat
  | .num x, .num y => operate L o x y
  | _, _ => none

/-- The first operator `o` of level `i` between two numbers is carried out, P:914-952. -/
def operateAt (L : Lib) (i : Int) (o : Op) : List (Tok × Int) → Option (Option (List Tok))
  | (a, ra) :: (t, rt) :: (b, rb) :: r =>
    if rt = i ∧ t = .op o ∧ ra < 0 ∧ rb < 0 then
      some ((operateTok L o a b).map (.num · :: r.map Prod.fst))
    else (operateAt L i o ((t, rt) :: (b, rb) :: r)).map (·.map (a :: ·))
  | _ => none

/-- The order in which operators are looked for, P:913. -/
def ops : List Op := [.pow, .div, .mul, .sub, .add]

/-- A calculation is looked for from the highest level on, P:911-955; `n` is the level. -/
def operateAny (L : Lib) (l : List (Tok × Int)) : Nat → Option (Option (List Tok))
  | 0 => none
  | n + 1 => match ops.findSome? (fun o => operateAt L (n + 1 : Nat) o l) with
    | some r => some r
    | none => operateAny L l n

/-- One turn of EVALUATE, P:824-955. -/
def turn (L : Lib) (l : List Tok) : Option (List Tok) :=
  match unbracket l with
  | some l' => some l'
  | none => match call L l with
    | some r => r
    | none => (operateAny L (rank 1 l) (maxOrd (rank 1 l)).toNat).join

/-- EVALUATE, P:806-962; `none` with IFAIL 1.  Every turn takes at least one term away, so that as many turns as terms are enough. -/
def evaluate (L : Lib) : Nat → List Tok → Option Rat
  | _, [.num x] => some x
  | 0, _ => none
  | n + 1, l => (turn L l).bind (evaluate L n)

/-! ### PARSE -/

/-- Terms as GETNEXT cuts them, P:668-724, and as PARSE marks them: numbers, operators and signs, brackets, names of functions, beginning and
end of functions. -/
inductive Word
  | num (x : Rat)
  | op (o : Op)
  | lp
  | rp
  | name (k : Nat)
  | fn (k : Nat)
  | fin
deriving DecidableEq, Repr

/-- The terms before brackets are functions, P:483-506; `none` if one of them has no name of a function. -/
def names : List Word → Option (List Word)
  | a :: .lp :: r => match a with
    | .op o => (names (.lp :: r)).map (.op o :: ·)
    | .lp => (names (.lp :: r)).map (.lp :: ·)
    | .name k => (names (.lp :: r)).map (.fn k :: ·)
    | _ => none
  | a :: r => (names r).map (a :: ·)
  | [] => some []

/-- The end of the brackets of a function is marked, P:512-524; `n` is ICOUNT. -/
def closeFn : Nat → List Word → List Word
  | _, [] => []
  | n, .lp :: r => .lp :: closeFn (n + 1) r
  | n, .rp :: r => if n = 1 then .fin :: r else .rp :: closeFn (n - 1) r
  | n, a :: r => a :: closeFn n r

theorem closeFn_length : ∀ (l : List Word) (n : Nat), (closeFn n l).length = l.length
  | [], n => rfl
  | .lp :: r, n => by simp [closeFn, closeFn_length r]
  | .rp :: r, n => by rw [closeFn]; split <;> simp [closeFn_length r]
  | .num _ :: r, n => by simp [closeFn, closeFn_length r]
  | .op _ :: r, n => by simp [closeFn, closeFn_length r]
  | .name _ :: r, n => by simp [closeFn, closeFn_length r]
  | .fn _ :: r, n => by simp [closeFn, closeFn_length r]
  | .fin :: r, n => by simp [closeFn, closeFn_length r]

/-- The brackets of functions are taken away, P:509-528, with COMPRESS. -/
def brackets : List Word → List Word
  | .fn k :: _ :: r => .fn k :: brackets (closeFn 1 r)
  | a :: r => a :: brackets r
  | [] => []
termination_by l => l.length
decreasing_by
  · simp only [closeFn_length, List.length_cons]; omega
  · simp

/-- EXPNEG, P:633-655: the end of the operand of a sign; `none` with IFAIL 1. -/
def endSign : Int → List Word → Option (List Word)
  | _, [] => some []
  | c, .op .sub :: r => (endSign c r).map (.op .sub :: ·)
  | c, .op .add :: r => (endSign c r).map (.op .add :: ·)
  | c, a :: r =>
    let c' := match a with
      | .lp => c + 1
      | .fn _ => c + 1
      | .rp => c - 1
      | .fin => c - 1
      | _ => c
    if c' < 0 then none
    else if c' = 0 then some (a :: .fin :: r)
    else (endSign c' r).map (a :: ·)

/-- Whether a sign after this term is the sign of an operand, P:549-562. -/
def opens : Word → Bool
  | .op _ => true
  | .lp => true
  | .fn _ => true
  | _ => false

/-- The first sign of an operand becomes a function, P:541-570; `u` says if a sign would be one of an operand.  `none` if there is none,
`some none` with IFAIL 1. -/
def sign : Bool → List Word → Option (Option (List Word))
  | _, [] => none
  | u, a :: r =>
    if u = true ∧ a = .op .sub then some ((endSign 0 r).map (.fn 15 :: ·))
    else if u = true ∧ a = .op .add then some ((endSign 0 r).map (.fn 16 :: ·))
    else (sign (opens a) r).map (·.map (a :: ·))

/-- All signs, P:540-573.  Every turn takes one sign away. -/
def signs : Nat → List Word → Option (List Word)
  | 0, l => some l
  | n + 1, l => match sign true l with
    | none => some l
    | some none => none
    | some (some l') => signs n l'

/-- A term for EVALUATE; a name of a function without brackets is looked for among the names of series, P:762-800, and not found. -/
def Word.tok : Word → Option Tok
  | .num x => some (.num x)
  | .op o => some (.op o)
  | .lp => some .lp
  | .rp => some .rp
  | .name _ => none
  | .fn k => some (.fn k)
  | .fin => some .fin

/-- Whether a term is an operator. -/
def Word.isOp : Word → Bool
  | .op _ => true
  | _ => false

/-- PARSE, P:421-607, but for the balance of brackets in the text. -/
def parse (l : List Word) : Option (List Word) :=
  (if l.length ≤ 2 then some l else names l).bind fun l =>
    let l := brackets l
    if l.getLast?.elim false Word.isOp then none else signs l.length l

/-- The value of an equation for one time, P:174-385. -/
def equation (L : Lib) (l : List Word) : Option Rat := do
  let l ← parse l
  let l ← l.mapM Word.tok
  evaluate L l.length l

end Verif.TspEq
