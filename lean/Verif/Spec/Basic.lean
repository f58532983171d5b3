import Verif.Model.Basic
/-
Vocabulary for C121: arithmetic expressions as trees, what they mean, and how they are written with as few parentheses as the
precedence of the operators allows.  Nothing here refers to the functions of the interpreter.
-/
namespace Verif.Basic

/-- An expression as a tree. -/
inductive Ex where
  | num (r : Rat)
  | str (s : List Nat)
  | var (v : Var)
  | neg (x : Ex)
  | pos (x : Ex)
  | fn (f : Fn) (x : Ex)
  | bin (o : Op) (x y : Ex)
deriving DecidableEq, Repr

/-- Precedence: OR and XOR bind least, then AND, comparisons, `+ -`, `* / MOD`, and `^` most. -/
def prec : Op → Nat
  | .or | .xor => 0
  | .and => 1
  | .eq | .lt | .gt | .le | .ge | .ne => 2
  | .plus | .minus => 3
  | .times | .div | .mod => 4
  | .up => 5

/-- The precedence the left operand needs to stand without parentheses: operators group to the left, `^` to the right. -/
def leftPrec (o : Op) : Nat := if o = .up then 6 else prec o

/-- The precedence the right operand needs to stand without parentheses. -/
def rightPrec (o : Op) : Nat := if o = .up then 5 else prec o + 1

/-- An expression written where precedence `l` is needed: in parentheses only if its own operator binds less. -/
def Ex.text : Nat → Ex → List Tok
  | _, .num r => [.num r]
  | _, .str s => [.str s]
  | _, .var v => [.var v]
  | _, .neg x => .op .minus :: x.text 6
  | _, .pos x => .op .plus :: x.text 6
  | _, .fn f x => .fn f :: x.text 6
  | l, .bin o x y =>
    if l ≤ prec o then x.text (leftPrec o) ++ .op o :: y.text (rightPrec o)
    else .lp :: (x.text (leftPrec o) ++ .op o :: y.text (rightPrec o)) ++ [.rp]

/-- The whole part of a number, rounded towards zero. -/
def whole (x : Rat) : Int := if 0 ≤ x then ⌊x⌋ else ⌈x⌉

/-- The truth of a comparison as a number. -/
def truth (p : Prop) [Decidable p] : Rat := if p then 1 else 0

/-- `x ^ y`: the power for a positive `x`; a negative `x` needs a whole exponent, an odd one keeps the sign; 0 raised to anything
is 0. -/
def power (L : Lib) (x y : Rat) : Option Rat :=
  if 0 < x then some (L.pow x y)
  else if x = 0 then some 0
  else if y = whole y then some (if Even (whole y) then L.pow (-x) y else -L.pow (-x) y)
  else none

/-- The remainder of `x` after division by `y` (`y ≠ 0`), with the sign of `x`. -/
def remainder (L : Lib) (x y : Rat) : Rat := if y = 0 then L.nan else x - y * whole (x / y)

/-- What an operator means; `none` is an error.  Division by zero gives zero.  MOD adds `1e-14` to the size of its first operand.
The comparisons take two numbers or two strings (in the order of a dictionary), `+` joins strings. -/
def meaning (L : Lib) : Op → Val → Val → Option Val
  | .plus, .num a, .num b => some (.num (a + b))
  | .minus, .num a, .num b => some (.num (a - b))
  | .times, .num a, .num b => some (.num (a * b))
  | .div, .num a, .num b => some (.num (if b = 0 then 0 else a / b))
  | .mod, .num a, .num b => some (.num (if 0 < a then remainder L (a + 1 / 10 ^ 14) b
                                        else if a < 0 then -remainder L (-a + 1 / 10 ^ 14) b else 0))
  | .up, .num a, .num b => (power L a b).map .num
  | .and, .num a, .num b => some (.num (Int.land (whole a) (whole b)))
  | .or, .num a, .num b => some (.num (Int.lor (whole a) (whole b)))
  | .xor, .num a, .num b => some (.num (Int.xor (whole a) (whole b)))
  | .eq, .num a, .num b => some (.num (truth (a = b)))
  | .ne, .num a, .num b => some (.num (truth (a ≠ b)))
  | .lt, .num a, .num b => some (.num (truth (a < b)))
  | .le, .num a, .num b => some (.num (truth (a ≤ b)))
  | .gt, .num a, .num b => some (.num (truth (b < a)))
  | .ge, .num a, .num b => some (.num (truth (b ≤ a)))
  | .plus, .str a, .str b => some (.str (a ++ b))
  | .eq, .str a, .str b => some (.num (truth (a = b)))
  | .ne, .str a, .str b => some (.num (truth (a ≠ b)))
  | .lt, .str a, .str b => some (.num (truth (a < b)))
  | .le, .str a, .str b => some (.num (truth (a < b ∨ a = b)))
  | .gt, .str a, .str b => some (.num (truth (b < a)))
  | .ge, .str a, .str b => some (.num (truth (b < a ∨ a = b)))
  | _, _, _ => none

/-- What a function means; NOT is the complement of the nearest whole number. -/
def fnMeaning (L : Lib) : Fn → Val → Option Val
  | .not, .num a => some (.num (-1 - ⌊a + 1 / 2⌋))
  | .sqr, .num a => some (.num (a ^ 2))
  | .abs, .num a => some (.num (max a (-a)))
  | .sgn, .num a => some (.num (if a = 0 then 0 else if 0 < a then 1 else -1))
  | .len, .str s => some (.num s.length)
  | .lib k, .num a => some (.num (L.fn k a))
  | _, _ => none

/-- The number of a value. -/
def Val.number : Val → Option Rat
  | .num a => some a
  | .str _ => none

/-- The value of an expression; `none` is an error. -/
def Ex.val (L : Lib) (e : Env) : Ex → Option Val
  | .num r => some (.num r)
  | .str s => some (.str s)
  | .var v => some (if v.str then .str (e.str v) else .num (e.num v))
  | .neg x => (x.val L e).bind fun a => a.number.map fun r => .num (-r)
  | .pos x => (x.val L e).bind fun a => a.number.map .num
  | .fn f x => (x.val L e).bind (fnMeaning L f)
  | .bin o x y => (x.val L e).bind fun a => (y.val L e).bind fun b => meaning L o a b

/-- The text after an expression does not go on with it: it starts neither with an operator nor with a parenthesis. -/
def Ends : List Tok → Prop
  | .op _ :: _ => False
  | .lp :: _ => False
  | _ => True

end Verif.Basic
