import Mathlib.Data.Int.Bitwise
import Mathlib.Data.Rat.Floor
import Mathlib.Algebra.Order.Field.Rat
/-
The BASIC interpreter of the PHREEQC engine, in which users write rate laws (RATES), USER_PUNCH and USER_PRINT:
IPhreeqcMMS/IPhreeqc/src/phreeqcpp/PBasic.cpp and PBasic.h.  All lines cited below are lines of PBasic.cpp unless another file
is named.  The model starts at the tokens of a line: `parse` (568-903), which cuts the text of a line into tokens, is not
modelled.

Simplifications: `double` is `Rat` (exact); `exp`, `log`, `sin`, ... are parameters; a conversion to `long` never overflows; only
scalar variables (a variable followed by a parenthesis is an array element, 1996-2053, and is reported as `bad` here); only
those functions that do not ask the chemistry for anything (2081-2175, 4850-4960); error messages are not kept, an error ends
the run (`errormsg` throws `PBasicStop`); `phreeqci_gui` and `parse_all` are false (they are only set by the graphical
interface).
-/
namespace Verif.Basic

/-- A variable: the name and whether the name ends with `$` (`stringvar`).  PBasic.h:46-66, PBasic.cpp:770-804. -/
structure Var where
  id : Nat
  str : Bool
deriving DecidableEq, Repr

/-- The operators between two operands.  PBasic.h:146-165. -/
inductive Op where
  | plus | minus | times | div | up | eq | lt | gt | le | ge | ne | and | or | xor | mod
deriving DecidableEq, Repr

/-- The functions of one operand that need no chemistry; `lib k` are the functions of the mathematical library (SQRT, SIN, COS,
TAN, ARCTAN, LOG, EXP).  PBasic.h:166-182. -/
inductive Fn where
  | not | sqr | abs | sgn | len | lib (k : Nat)
deriving DecidableEq, Repr

/-- The tokens of a line.  `enum BASIC_TOKEN` and `tokenrec`, PBasic.h:68-84 and 140-366. -/
inductive Tok where
  | num (r : Rat) | str (s : List Nat) | var (v : Var) | op (o : Op) | fn (f : Fn)
  | lp | rp | comma | semi | colon
  | rem | let_ | goto_ | if_ | then_ | else_ | end_ | for_ | to_ | step_ | next | while_ | wend | gosub | ret
  | save | punch | other (k : Nat)
deriving DecidableEq, Repr

/-- A value: `valrec`, a number or a string of characters.  PBasic.h:78-86. -/
inductive Val where
  | num (r : Rat)
  | str (s : List Nat)
deriving DecidableEq, Repr

/-- What goes wrong: an error of the program (`snerr`, `tmerr`, `errormsg`), or the bound of the model used up (shown not to
happen for expressions). -/
inductive Fault where
  | bad
  | dry
deriving DecidableEq, Repr

/-- The outcome of a part of the interpreter. -/
abbrev R (α : Type) := Except Fault α

/-- The functions of the mathematical library: `pow x y` is `exp (y * log x)` for `x > 0`, `fn` the functions of one argument,
`nan` stands for the value of `fmod (x, 0)`. -/
structure Lib where
  pow : Rat → Rat → Rat
  fn : Nat → Rat → Rat
  nan : Rat

/-- The values of the variables, the rate saved by SAVE and the values punched by PUNCH.  A variable that was never assigned
is 0 or the empty string (770-804, 2119-2127). -/
structure Env where
  num : Var → Rat
  str : Var → List Nat
  saved : Option Rat
  out : List Val

/-- `(long) x`. -/
def trunc (x : Rat) : Int := x.num.tdiv x.den

/-- `fmod (x, y)`. -/
def fmod (L : Lib) (x y : Rat) : Rat := if y = 0 then L.nan else x - y * trunc (x / y)

/-- `strcmp`. -/
def strcmp : List Nat → List Nat → Ordering
  | [], [] => .eq
  | [], _ :: _ => .lt
  | _ :: _, [] => .gt
  | a :: s, b :: t => if a < b then .lt else if b < a then .gt else strcmp s t

/-- The comparison of two numbers. -/
def numcmp (a b : Rat) : Ordering := if a < b then .lt else if b < a then .gt else .eq

/-- The bits of the masks of `relexpr`: which orders make the operator true.  5203-5245. -/
def holds : Op → Ordering → Bool
  | .eq, .eq => true | .ge, .eq => true | .le, .eq => true
  | .lt, .lt => true | .le, .lt => true | .ne, .lt => true
  | .gt, .gt => true | .ge, .gt => true | .ne, .gt => true
  | _, _ => false

/-- `^`: the body of the loop of `upexpr`, 5041-5064. -/
def raise (L : Lib) (x y : Rat) : R Rat :=
  if 0 ≤ x then
    if 0 < x then .ok (L.pow x y) else .ok x
  else if y ≠ trunc y then .error .bad
  else if trunc y % 2 ≠ 0 then .ok (-(L.pow (-x) y)) else .ok (L.pow (-x) y)

/-- An operator applied to two values.  `^` 5041-5064, `* / MOD` 5085-5117, `+ -` 5134-5179, comparisons 5199-5252, AND 5266-5270,
OR and XOR 5288-5294. -/
def apply (L : Lib) : Op → Val → Val → R Val
  | .up, .num a, .num b => (raise L a b).map .num
  | .times, .num a, .num b => .ok (.num (a * b))
  | .div, .num a, .num b => .ok (.num (if b ≠ 0 then a / b else 0))
  | .mod, .num a, .num b =>
      .ok (.num (if a ≠ 0 then |a| / a * fmod L (|a| + 1 / 100000000000000) b else 0))
  | .plus, .num a, .num b => .ok (.num (a + b))
  | .plus, .str a, .str b => .ok (.str (a ++ b))
  | .minus, .num a, .num b => .ok (.num (a - b))
  | .and, .num a, .num b => .ok (.num (Int.land (trunc a) (trunc b)))
  | .or, .num a, .num b => .ok (.num (Int.lor (trunc a) (trunc b)))
  | .xor, .num a, .num b => .ok (.num (Int.xor (trunc a) (trunc b)))
  | .eq, .num a, .num b => .ok (.num (if holds .eq (numcmp a b) then 1 else 0))
  | .lt, .num a, .num b => .ok (.num (if holds .lt (numcmp a b) then 1 else 0))
  | .gt, .num a, .num b => .ok (.num (if holds .gt (numcmp a b) then 1 else 0))
  | .le, .num a, .num b => .ok (.num (if holds .le (numcmp a b) then 1 else 0))
  | .ge, .num a, .num b => .ok (.num (if holds .ge (numcmp a b) then 1 else 0))
  | .ne, .num a, .num b => .ok (.num (if holds .ne (numcmp a b) then 1 else 0))
  | .eq, .str a, .str b => .ok (.num (if holds .eq (strcmp a b) then 1 else 0))
  | .lt, .str a, .str b => .ok (.num (if holds .lt (strcmp a b) then 1 else 0))
  | .gt, .str a, .str b => .ok (.num (if holds .gt (strcmp a b) then 1 else 0))
  | .le, .str a, .str b => .ok (.num (if holds .le (strcmp a b) then 1 else 0))
  | .ge, .str a, .str b => .ok (.num (if holds .ge (strcmp a b) then 1 else 0))
  | .ne, .str a, .str b => .ok (.num (if holds .ne (strcmp a b) then 1 else 0))
  | _, _, _ => .error .bad

/-- A function of one operand: NOT 2153-2157 (`~ (long) floor (x + 0.5)`), SQR 2159-2164, ABS 4932-4936, SGN 4938-4943, LEN
5006-5010, the others e.g. 2166-2170; `realfactor` 1827-1835 and `strfactor` 1837-1846 check the kind of the operand. -/
def applyFn (L : Lib) : Fn → Val → R Val
  | .not, .num a => .ok (.num (Int.lnot ⌊a + 1 / 2⌋))
  | .sqr, .num a => .ok (.num (a * a))
  | .abs, .num a => .ok (.num |a|)
  | .sgn, .num a => .ok (.num ((if a > 0 then 1 else 0) - (if a < 0 then 1 else 0)))
  | .len, .str s => .ok (.num s.length)
  | .lib k, .num a => .ok (.num (L.fn k a))
  | _, _ => .error .bad

/-- `- x` and `+ x` in front of a factor, 2143-2151. -/
def applySign : Op → Val → R Val
  | .minus, .num a => .ok (.num (-a))
  | .plus, .num a => .ok (.num a)
  | _, _ => .error .bad

/-- The six functions that read a chain of operators, numbered from the outside: 0 `expr` (OR, XOR) 5275-5298, 1 `andexpr` (AND)
5258-5273, 2 `relexpr` (comparisons) 5184-5256, 3 `sexpr` (+ -) 5122-5182, 4 `term` (* / MOD) 5069-5120, 5 `upexpr` (^) 5033-5067.
Which of them takes the operator. -/
def lv : Op → Nat
  | .or => 0 | .xor => 0
  | .and => 1
  | .eq => 2 | .lt => 2 | .gt => 2 | .le => 2 | .ge => 2 | .ne => 2
  | .plus => 3 | .minus => 3
  | .times => 4 | .div => 4 | .mod => 4
  | .up => 5

/-- Which function reads the operand to the right of the operator: the next inner one, but `upexpr` calls itself (5047). -/
def rightLv (l : Nat) : Nat := if l = 5 then 5 else l + 1

/-- `require (tokrp)`.  1925-1950. -/
def close : Val × List Tok → R (Val × List Tok)
  | (v, .rp :: t) => .ok (v, t)
  | _ => .error .bad

/-- `factor`, 2056-5031: `sub` reads an expression (`expr`), `rec` another factor. -/
def factor (L : Lib) (e : Env) (sub rec : List Tok → R (Val × List Tok)) (t : List Tok) : R (Val × List Tok) :=
  match t with
  | .num r :: t => .ok (.num r, t)
  | .str s :: t => .ok (.str s, t)
  | .var v :: t =>
    if t.head? = some .lp then .error .bad
    else .ok (if v.str then .str (e.str v) else .num (e.num v), t)
  | .lp :: t =>
    match sub t with
    | .error f => .error f
    | .ok p => close p
  | .op o :: t =>
    if o = .minus ∨ o = .plus then
      match rec t with
      | .error f => .error f
      | .ok (a, t) => (applySign o a).map fun v => (v, t)
    else .error .bad
  | .fn f :: t =>
    match rec t with
    | .error x => .error x
    | .ok (a, t) => (applyFn L f a).map fun v => (v, t)
  | _ => .error .bad

/-- One turn of the loop of the function number `l`: while the next token is one of its operators, the operand to its right is
read (`rd`), the operator applied to the value so far, and the loop goes on (`again`). -/
def link (L : Lib) (l : Nat) (rd : List Tok → R (Val × List Tok)) (again : Val → List Tok → R (Val × List Tok))
    (a : Val) (t : List Tok) : R (Val × List Tok) :=
  match t with
  | .op o :: t' =>
    if lv o = l then
      match rd t' with
      | .error f => .error f
      | .ok (b, t'') =>
        match apply L o a b with
        | .error f => .error f
        | .ok c => again c t''
    else .ok (a, t)
  | _ => .ok (a, t)

mutual

/-- The function number `l` (see `lv`): it reads an operand with the next inner function, then goes through the chain of its own
operators; number 6 is `factor`.  `n` bounds the recursion. -/
def eat (L : Lib) (e : Env) : Nat → Nat → List Tok → R (Val × List Tok)
  | 0, _, _ => .error .dry
  | n + 1, l, t =>
    if l < 6 then
      match eat L e n (l + 1) t with
      | .error f => .error f
      | .ok (a, t) => chain L e n l a t
    else factor L e (eat L e n 0) (eat L e n 6) t

/-- The loop of the function number `l`.  `n` bounds the recursion. -/
def chain (L : Lib) (e : Env) : Nat → Nat → Val → List Tok → R (Val × List Tok)
  | 0, _, _, _ => .error .dry
  | n + 1, l, a, t => link L l (eat L e n (rightLv l)) (chain L e n l) a t

end

/-- Enough for a list of tokens (`Lemmas/Basic.lean`). -/
def fuel (t : List Tok) : Nat := 10 * t.length + 9

/-- `expr`, 5275-5298. -/
def expr (L : Lib) (e : Env) (t : List Tok) : R (Val × List Tok) := eat L e (fuel t) 0 t

/-- `realexpr`, 1878-1887. -/
def realexpr (L : Lib) (e : Env) (t : List Tok) : R (Rat × List Tok) :=
  match expr L e t with
  | .ok (.num r, t) => .ok (r, t)
  | .ok (.str _, _) => .error .bad
  | .error f => .error f

end Verif.Basic
