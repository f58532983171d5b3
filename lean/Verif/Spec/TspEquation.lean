import Verif.Model.TspEquation
/-
Vocabulary for C132: the grammar of equations, with the values of arithmetic.
-/
namespace Verif.TspEq

mutual
/-- Sums and differences, from left to right. -/
inductive Sum
  | one (t : Product)
  | plus (s : Sum) (t : Product)
  | minus (s : Sum) (t : Product)
/-- Products and quotients, from left to right. -/
inductive Product
  | one (p : Power)
  | times (t : Product) (p : Power)
  | over (t : Product) (p : Power)
/-- Powers, from left to right. -/
inductive Power
  | one (a : Atom)
  | raised (p : Power) (a : Atom)
/-- Numbers, sums in brackets, functions of sums (the 14 functions of `funct`, the first one being `abs`) and signs. -/
inductive Atom
  | num (x : Rat)
  | bracket (s : Sum)
  | func (k : Fin 14) (s : Sum)
  | neg (a : Atom)
  | pos (a : Atom)
end

mutual
/-- The value of a sum; `none` where it is not defined. -/
def Sum.val (L : Lib) : Sum → Option Rat
  | .one t => t.val L
  | .plus s t => do return (← s.val L) + (← t.val L)
  | .minus s t => do return (← s.val L) - (← t.val L)
def Product.val (L : Lib) : Product → Option Rat
  | .one p => p.val L
  | .times t p => do return (← t.val L) * (← p.val L)
  | .over t p => do
    let x ← t.val L
    let y ← p.val L
    if y = 0 then none else some (x / y)
def Power.val (L : Lib) : Power → Option Rat
  | .one a => a.val L
  | .raised p a => do
    let x ← p.val L
    let y ← a.val L
    if x < 0 ∧ y.den ≠ 1 then none else some (L.pow x y)
def Atom.val (L : Lib) : Atom → Option Rat
  | .num x => some x
  | .bracket s => s.val L
  | .func k s => do
    let x ← s.val L
    if k = 0 then some |x| else L.fn (k + 1) x
  | .neg a => do return -(← a.val L)
  | .pos a => a.val L
end

mutual
/-- A sum as it is written. -/
def Sum.words : Sum → List Word
  | .one t => t.words
  | .plus s t => s.words ++ .op .add :: t.words
  | .minus s t => s.words ++ .op .sub :: t.words
def Product.words : Product → List Word
  | .one p => p.words
  | .times t p => t.words ++ .op .mul :: p.words
  | .over t p => t.words ++ .op .div :: p.words
def Power.words : Power → List Word
  | .one a => a.words
  | .raised p a => p.words ++ .op .pow :: a.words
def Atom.words : Atom → List Word
  | .num x => [.num x]
  | .bracket s => .lp :: s.words ++ [.rp]
  | .func k s => .name (k + 1) :: .lp :: s.words ++ [.rp]
  | .neg a => .op .sub :: a.words
  | .pos a => .op .add :: a.words
end

mutual
/-- The terms of a sum as EVALUATE receives them. -/
def Sum.toks : Sum → List Tok
  | .one t => t.toks
  | .plus s t => s.toks ++ .op .add :: t.toks
  | .minus s t => s.toks ++ .op .sub :: t.toks
def Product.toks : Product → List Tok
  | .one p => p.toks
  | .times t p => t.toks ++ .op .mul :: p.toks
  | .over t p => t.toks ++ .op .div :: p.toks
def Power.toks : Power → List Tok
  | .one a => a.toks
  | .raised p a => p.toks ++ .op .pow :: a.toks
def Atom.toks : Atom → List Tok
  | .num x => [.num x]
  | .bracket s => .lp :: s.toks ++ [.rp]
  | .func k s => .fn (k + 1) :: s.toks ++ [.fin]
  | .neg a => .fn 15 :: a.toks ++ [.fin]
  | .pos a => .fn 16 :: a.toks ++ [.fin]
end

end Verif.TspEq
