import Verif.Model.Formula
import Verif.Spec.CText
import Verif.Spec.DataLine
import Mathlib.Algebra.Order.Ring.Rat
/-
Specification vocabulary for chemical formulas and equations: how they are written and what they mean.
Independent of the parsing functions of the model.
-/
namespace Verif.Formula
open Verif.CText
open Verif.DataLine (Dec)

/-- Capital letters. -/
def capitals : List Char := "ABCDEFGHIJKLMNOPQRSTUVWXYZ".toList

/-- Small letters. -/
def smalls : List Char := "abcdefghijklmnopqrstuvwxyz".toList

/-- A number without sign and exponent, of at most 100 characters. -/
def IsNum (d : Dec) : Prop := d.Ok ∧ d.sign = [] ∧ d.ex = none ∧ d.text.length ≤ 100

instance (d : Dec) : Decidable (IsNum d) := by unfold IsNum; infer_instance

/-- Text of an optional number. -/
def numText : Option Dec → List Char
  | none => []
  | some d => d.text

/-- Value of an optional number: 1 if there is none. -/
def numValue : Option Dec → Rat
  | none => 1
  | some d => d.value

/-- An optional number is well-formed. -/
def NumOk : Option Dec → Prop
  | none => True
  | some d => IsNum d

instance : ∀ o : Option Dec, Decidable (NumOk o)
  | none => inferInstanceAs (Decidable True)
  | some d => inferInstanceAs (Decidable (IsNum d))

/-- Characters allowed between the brackets of a name. -/
def Inner (c : Char) : Prop := c ∈ capitals ∨ c ∈ smalls ∨ c ∈ digits ∨ c ∈ ['+', '-', '=', '.', ':', '_']

instance (c : Char) : Decidable (Inner c) := by unfold Inner; infer_instance

/-- The name of an element: a capital letter and small letters (`Ca`), or a text in brackets and small letters (`[13C]`);
`_` counts as a small letter. -/
inductive Name where
  | plain (first : Char) (tail : List Char)
  | bracketed (inner : List Char) (tail : List Char)
deriving Repr, DecidableEq

/-- The name as written. -/
def Name.text : Name → List Char
  | .plain c t => c :: t
  | .bracketed i t => '[' :: i ++ ']' :: t

/-- Well-formed names. -/
def Name.Ok : Name → Prop
  | .plain c t => c ∈ capitals ∧ ∀ x ∈ t, x ∈ smalls ∨ x = '_'
  | .bracketed i t => i ≠ [] ∧ (∀ x ∈ i, Inner x) ∧ ∀ x ∈ t, x ∈ smalls ∨ x = '_'

instance : ∀ n : Name, Decidable n.Ok
  | .plain c t => inferInstanceAs (Decidable (c ∈ capitals ∧ ∀ x ∈ t, x ∈ smalls ∨ x = '_'))
  | .bracketed i t => inferInstanceAs (Decidable (i ≠ [] ∧ (∀ x ∈ i, Inner x) ∧ ∀ x ∈ t, x ∈ smalls ∨ x = '_'))

/-- A formula: a sequence of elements and groups in parentheses, each with an optional number. -/
inductive Form where
  | nil
  | elem (name : Name) (num : Option Dec) (rest : Form)
  | group (body : Form) (num : Option Dec) (rest : Form)
deriving Repr, DecidableEq

/-- The formula as written. -/
def Form.text : Form → List Char
  | .nil => []
  | .elem n d r => n.text ++ numText d ++ r.text
  | .group b d r => '(' :: b.text ++ ')' :: numText d ++ r.text

/-- Well-formed formulas. -/
def Form.Ok : Form → Prop
  | .nil => True
  | .elem n d r => n.Ok ∧ NumOk d ∧ r.Ok
  | .group b d r => b.Ok ∧ NumOk d ∧ r.Ok

instance Form.decOk : ∀ f : Form, Decidable f.Ok
  | .nil => inferInstanceAs (Decidable True)
  | .elem n d r => @instDecidableAnd _ _ inferInstance (@instDecidableAnd _ _ inferInstance (Form.decOk r))
  | .group b d r => @instDecidableAnd _ _ (Form.decOk b) (@instDecidableAnd _ _ inferInstance (Form.decOk r))

/-- How much of the element `x` a formula contains. -/
def Form.count (x : List Char) : Form → Rat
  | .nil => 0
  | .elem n d r => (if n.text = x then numValue d else 0) + r.count x
  | .group b d r => numValue d * b.count x + r.count x

/-- A compound: a formula and what is attached to it by colons, each part with an optional factor
(`CaSO4:2H2O`). -/
structure Compound where
  main : Form
  parts : List (Option Dec × Form) := []
deriving Repr, DecidableEq

/-- Parts as written. -/
def partsText : List (Option Dec × Form) → List Char
  | [] => []
  | (d, f) :: r => ':' :: numText d ++ f.text ++ partsText r

/-- The compound as written. -/
def Compound.text (c : Compound) : List Char := c.main.text ++ partsText c.parts

/-- Well-formed compounds. -/
def Compound.Ok (c : Compound) : Prop := c.main ≠ .nil ∧ c.main.Ok ∧ ∀ q ∈ c.parts, NumOk q.1 ∧ q.2.Ok

instance (c : Compound) : Decidable c.Ok := by unfold Compound.Ok; infer_instance

/-- How much of the element `x` a compound contains. -/
def Compound.count (x : List Char) (c : Compound) : Rat :=
  c.main.count x + (c.parts.map fun q => numValue q.1 * q.2.count x).sum

/-- Total of the coefficients of the entries for `x` in a list of elements. -/
def total (x : List Char) (l : Elts) : Rat := ((l.filter fun e => e.1 = x).map (·.2)).sum

/-! ### Species and equations -/

/-- A charge as written: nothing, a row of `n + 1` signs, or a sign and a number. -/
inductive Charge where
  | zero
  | row (neg : Bool) (n : Nat)
  | num (neg : Bool) (n : Nat) (frac : Option (List Char))
deriving Repr, DecidableEq

/-- Sign character. -/
def signChar (neg : Bool) : Char := if neg then '-' else '+'

/-- The charge as written. -/
def Charge.text : Charge → List Char
  | .zero => []
  | .row neg n => List.replicate (n + 1) (signChar neg)
  | .num neg n f => signChar neg :: decimal n ++ (match f with | none => [] | some f => '.' :: f)

/-- The charge meant. -/
def Charge.value : Charge → Rat
  | .zero => 0
  | .row neg n => if neg then -(n + 1) else n + 1
  | .num neg n f =>
    let v : Rat := n + (numeral (f.getD []) : Rat) / 10 ^ (f.getD []).length
    if neg then -v else v

/-- Well-formed charges: at most 100 characters, integral part below 2^31. -/
def Charge.Ok : Charge → Prop
  | .zero => True
  | .row _ n => n < 100
  | .num neg n f => n < 2 ^ 31 ∧ (∀ c ∈ f.getD [], c ∈ digits) ∧ (Charge.num neg n f).text.length ≤ 100

instance : ∀ z : Charge, Decidable z.Ok
  | .zero => inferInstanceAs (Decidable True)
  | .row _ n => inferInstanceAs (Decidable (n < 100))
  | .num _ n f => inferInstanceAs (Decidable (n < 2 ^ 31 ∧ _ ∧ _))

/-- The charge is written without fraction, or with a fraction of zeros only. -/
def Charge.Whole : Charge → Prop
  | .num _ _ (some f) => ∀ c ∈ f, c = '0'
  | _ => True

/-- What a species consists of: an electron or a compound, the latter possibly marked as a solid or a gas. -/
inductive Body where
  | electron
  | compound (c : Compound) (mark : List Char)
deriving Repr, DecidableEq

/-- The body as written. -/
def Body.text : Body → List Char
  | .electron => ['e']
  | .compound c m => c.text ++ m

/-- How much of the element `x` it contains. -/
def Body.count (x : List Char) : Body → Rat
  | .electron => if x = ['e'] then 1 else 0
  | .compound c _ => c.count x

/-- A species as written in an equation: sign, optional coefficient, body, charge. -/
structure Species where
  sign : List Char := []
  num : Option Dec := none
  body : Body
  charge : Charge := .zero
deriving Repr, DecidableEq

/-- The species as written. -/
def Species.text (s : Species) : List Char := s.sign ++ numText s.num ++ s.body.text ++ s.charge.text

/-- Its coefficient. -/
def Species.coef (s : Species) : Rat := if s.sign = ['-'] then - numValue s.num else numValue s.num

/-- Markers of solids and gases. -/
def markers : List (List Char) := [['(', 's', ')'], ['(', 'S', ')'], ['(', 'g', ')'], ['(', 'G', ')']]

/-- Well-formed species without marker, with at most one part behind a colon.  An electron has a negative charge. -/
def Species.Ok (s : Species) : Prop :=
  NumOk s.num ∧ s.charge.Ok ∧
    match s.body with
    | .electron => s.charge.value < 0
    | .compound c m => c.Ok ∧ c.parts.length ≤ 1 ∧ m = []

/-- One side of an equation as written. -/
def sideText (l : List Species) : List Char := l.flatMap Species.text

/-- Signs between the species of one side: the first may have one, the others have one. -/
def SideOk : List Species → Prop
  | [] => True
  | s :: l => (s.sign = [] ∨ s.sign = ['+'] ∨ s.sign = ['-']) ∧ ∀ t ∈ l, t.sign = ['+'] ∨ t.sign = ['-']

/-- Amount of something (charge, element) on one side. -/
def sideSum (f : Species → Rat) (l : List Species) : Rat := (l.map fun s => s.coef * f s).sum

/-- Two amounts agree within the tolerance of 1e-9. -/
def Near (a b : Rat) : Prop := -(1 / 1000000000) ≤ a - b ∧ a - b ≤ 1 / 1000000000

/-- Both sides have the same charge and the same amount of every element but the electron. -/
def Balanced (l r : List Species) : Prop :=
  Near (sideSum (fun s => s.charge.value) l) (sideSum (fun s => s.charge.value) r) ∧
    ∀ x, x ≠ ['e'] → Near (sideSum (fun s => s.body.count x) l) (sideSum (fun s => s.body.count x) r)

/-- The text contains none of the markers (among them `(S)`, which is also a formula). -/
def Unmarked (s : List Char) : Prop := ∀ m ∈ markers, ¬ m <:+: s

/-- White space. -/
def white : List Char := [' ', '\t', '\n', '\r', Char.ofNat 11, Char.ofNat 12]

/-- The text `t` is `s` with white space inserted anywhere. -/
def Spaced (t s : List Char) : Prop := t.filter (fun c => c ∉ white) = s

/-- The text contains none of the patterns that are removed from the reaction of a phase. -/
def Clean (s : List Char) : Prop :=
  Unmarked s ∧ ∀ m ∈ ["(aq)".toList, "(AQ)".toList, "H2O(l)".toList, "(H2O(L)".toList], ¬ m <:+: s

/-- The phase of the reaction of a phase: a compound, marked as solid or gas or not; a marked one has no charge. -/
def Species.PhaseOk (s : Species) : Prop :=
  NumOk s.num ∧ s.charge.Ok ∧
    match s.body with
    | .electron => False
    | .compound c m => c.Ok ∧ c.parts.length ≤ 1 ∧ Unmarked c.text ∧ (m = [] ∨ (m ∈ markers ∧ s.charge = .zero))

/-- A list of elements without repetitions that contains the amount `f x` of every element `x`. -/
def Composition (l : Elts) (f : List Char → Rat) : Prop := (l.map (·.1)).Nodup ∧ ∀ x, total x l = f x

end Verif.Formula
