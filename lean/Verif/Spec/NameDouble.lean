import Verif.Model.NameDouble
/-
Specification vocabulary for name/value maps and mixing.
-/
namespace Verif.Nd

/-- The names increase (the order of `std::map`); every map of the program has this form. -/
def Sorted {V} (m : ND V) : Prop := m.Pairwise fun a b => ltText a.1 b.1 = true

/-- The amount of `k`; names that are not in the map count as zero. -/
def val (m : ND Rat) (k : Text) : Rat := (find m k).getD 0

/-- The element of a name: `Fe(2)` and `Fe` belong to `Fe`. -/
def elementOf (n : Text) : Text := n.takeWhile (· != '(')

/-- Names as they occur for elements and valence states: no character that sorts before `(` (such as
a blank), and a parenthesis only in names of at least four characters (as in `C(4)`). -/
def PlainName (n : Text) : Prop := (∀ c ∈ n, 40 ≤ c.toNat) ∧ (n.length < 4 → '(' ∉ n)

/-- Sum of the amounts of all entries that belong to element `e`. -/
def elementSum (m : ND Rat) (e : Text) : Rat :=
  ((m.filter fun p => decide (elementOf p.1 = e)).map (·.2)).sum

/-- The elements whose totals are kept elsewhere. -/
def special (e : Text) : Prop := e = "H".toList ∨ e = "O".toList ∨ e = "Charge".toList

/-- Look up several words in a dictionary. -/
def findAll : Dict → List Text → List Nat × Dict
  | d, [] => ([], d)
  | d, w :: ws => ((d.find w).1 :: (findAll (d.find w).2 ws).1, (findAll (d.find w).2 ws).2)

/-- Serialize several maps one after the other. -/
def serializeAll {V} (b : Bufs V) (ms : List (ND V)) : Bufs V := ms.foldl serialize b

/-- Read back `n` maps. -/
def deserializeAll {V} (words : List Text) : Nat → List Nat → List V → Option (List (ND V) × List Nat × List V)
  | 0, is, ds => some ([], is, ds)
  | n + 1, is, ds =>
    match deserialize words is ds with
    | none => none
    | some (m, is', ds') => (deserializeAll words n is' ds').map fun r => (m :: r.1, r.2)

/-- The component solutions of a mixture that exist, with their fractions. -/
def parts {α} (store : Int → Option α) (mix : List (Int × Rat)) : List (α × Rat) :=
  mix.filterMap fun c => (store c.1).map fun s => (s, c.2)

/-- Sum of `fraction × quantity` over the parts. -/
def total {α} (q : α → Rat) (ps : List (α × Rat)) : Rat := (ps.map fun p => p.2 * q p.1).sum

/-- The intensive fields. -/
def intFields : List (Intens → Rat) :=
  [Intens.tc, Intens.ph, Intens.pe, Intens.mu, Intens.ah2o, Intens.density, Intens.viscosity, Intens.viscos0, Intens.patm]

/-- The intensive accumulators with the corresponding numbers of a solution. -/
def accInt : List ((Acc → Rat) × (Intens → Rat)) :=
  [(Acc.tc, Intens.tc), (Acc.ph, Intens.ph), (Acc.patm, Intens.patm), (Acc.pe, Intens.pe), (Acc.mu, Intens.mu),
   (Acc.ah2o, Intens.ah2o), (Acc.viscos, Intens.viscosity), (Acc.viscos0, Intens.viscos0), (Acc.density, Intens.density)]

/-- The extensive accumulators with the corresponding numbers of a solution. -/
def accExt : List ((Acc → Rat) × (Soln → Rat)) :=
  [(Acc.totalH, Soln.totalH), (Acc.totalO, Soln.totalO), (Acc.cb, Soln.cb), (Acc.massWater, Soln.massWater)]

/-- Sum of the totals of a solution that the data base assigns to element `e`. -/
def primarySum (primary : Text → Option Text) (l : ND Rat) (e : Text) : Rat :=
  ((l.filter fun p => decide (primary p.1 = some e)).map (·.2)).sum

/-- Words that survive the text form of the dictionary. -/
def GoodWord (w : Text) : Prop := '\n' ∉ w ∧ w.length ≤ 255

end Verif.Nd
