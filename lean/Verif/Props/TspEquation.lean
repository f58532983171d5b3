import Verif.Lemmas.TspEquation4
/-
C132: equations between time series of TSPROC have the values of arithmetic.
-/
namespace Verif.TspEq

/-- Every equation that the grammar allows, of any size and depth, gets the value that the grammar gives to it; where the value is not
defined, the equation is refused. -/
theorem C132_equation_value_partial (L : Lib) (e : Sum) : equation L e.words = e.val L := equation_sum L e

/-- A library with powers of whole exponents. -/
def exLib : Lib := ⟨fun _ _ => none, fun x y => x ^ y.num.toNat⟩

/-- `10 - 3 - -(2 + 4) * 6 / 4 * abs(1 - 3 ^ 2)`. -/
def exSum : Sum :=
  .minus (.minus (.one (.one (.one (.num 10)))) (.one (.one (.num 3))))
    (.times (.over (.times (.one (.one (.neg (.bracket (.plus (.one (.one (.one (.num 2)))) (.one (.one (.num 4))))))))
      (.one (.num 6))) (.one (.num 4)))
      (.one (.func 0 (.minus (.one (.one (.one (.num 1)))) (.one (.raised (.one (.num 3)) (.num 2)))))))

example : exSum.words = [.num 10, .op .sub, .num 3, .op .sub, .op .sub, .lp, .num 2, .op .add, .num 4, .rp, .op .mul, .num 6, .op .div,
    .num 4, .op .mul, .name 1, .lp, .num 1, .op .sub, .num 3, .op .pow, .num 2, .rp] := by decide +kernel

example : exSum.val exLib = some 79 := by decide +kernel

example : equation exLib exSum.words = some 79 := by rw [C132_equation_value_partial]; decide +kernel

/-- A sign belongs to the operand and not to the power: `-x ^ y` is the power of `-x`, not as in algebra and in Fortran the opposite of
the power of `x`. -/
theorem C132_sign_before_power_violated (L : Lib) (x y : Rat) (hy : y.den = 1) :
    equation L [.op .sub, .num x, .op .pow, .num y] = some (L.pow (-x) y) := by
  have h := equation_sum L (.one (.one (.raised (.one (.neg (.num x))) (.num y))))
  simp only [Sum.words, Product.words, Power.words, Atom.words, Sum.val, Product.val, Power.val, Atom.val, List.cons_append,
    List.nil_append, Option.bind_eq_bind, Option.bind_some, Option.pure_def] at h
  rw [h, if_neg (by simp [hy])]

example : equation exLib [.op .sub, .num 2, .op .pow, .num 2] = some 4 := by
  rw [C132_sign_before_power_violated exLib 2 2 rfl]; decide +kernel

/-- Powers are taken from left to right: `x ^ y ^ z` is `(x ^ y) ^ z`, not as in algebra and in Fortran `x ^ (y ^ z)`. -/
theorem C132_towers_violated (L : Lib) (x y z : Rat) (hy : y.den = 1) (hz : z.den = 1) :
    equation L [.num x, .op .pow, .num y, .op .pow, .num z] = some (L.pow (L.pow x y) z) := by
  have h := equation_sum L (.one (.one (.raised (.raised (.one (.num x)) (.num y)) (.num z))))
  simp only [Sum.words, Product.words, Power.words, Atom.words, Sum.val, Product.val, Power.val, Atom.val, List.cons_append,
    List.nil_append, Option.bind_eq_bind, Option.bind_some] at h
  rw [if_neg (by simp [hy]), Option.bind_some, if_neg (by simp [hz])] at h
  exact h

example : equation exLib [.num 2, .op .pow, .num 3, .op .pow, .num 2] = some 64 := by
  rw [C132_towers_violated exLib 2 3 2 rfl rfl]; decide +kernel

end Verif.TspEq
