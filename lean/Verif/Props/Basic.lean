import Verif.Lemmas.Basic3
/-
C121: an expression of a BASIC program (a rate law, USER_PUNCH, ...) has the value that the precedence of its operators gives it.
-/
namespace Verif.Basic

/-- The text of any expression, written with only the parentheses that precedence demands, is read exactly to its end, whatever
follows, and gives the value of the expression, or an error exactly if the expression has none.  What is missing from the full
claim: NOT, MOD, powers of zero and the minus sign have the meanings of `fnMeaning`, `meaning` and `Ex.text`, which are not the
usual ones (see the theorems below). -/
theorem C121_value_partial (L : Lib) (e : Env) (x : Ex) (rest : List Tok) (h : Ends rest) :
    expr L e (x.text 0 ++ rest) =
      match x.val L e with
      | some v => .ok (v, rest)
      | none => .error .bad := by
  rw [expr_text L e x rest h]
  cases x.val L e <;> rfl

/-- Reading an expression always comes to an end, whatever the tokens are: the bound of the model is never used up. -/
theorem C121_ends (L : Lib) (e : Env) (t : List Tok) : expr L e t ≠ .error .dry :=
  rd_dry L e (by omega)

/-- What is read is taken from the front of the line: what remains is shorter. -/
theorem C121_consumes (L : Lib) (e : Env) (t u : List Tok) (v : Val) (h : expr L e t = .ok (v, u)) : u.length < t.length :=
  (shorter L e _).1 _ _ _ _ h

/-- NOT of a comparison is never zero, so that `IF NOT (a = b) THEN` is always taken: a true comparison is 1, and the complement
of 1 is -2. -/
theorem C121_not_violated (L : Lib) (e : Env) (o : Op) (a b : Rat) (ho : prec o = 2) (rest : List Tok) (h : Ends rest) :
    ∃ r, r ≠ 0 ∧
      expr L e (.fn .not :: .lp :: .num a :: .op o :: .num b :: .rp :: rest) = .ok (.num r, rest) := by
  have key := C121_value_partial L e (.fn .not (.bin o (.num a) (.num b))) rest h
  have htext : (Ex.fn .not (.bin o (.num a) (.num b))).text 0 ++ rest =
      .fn .not :: .lp :: .num a :: .op o :: .num b :: .rp :: rest := by
    simp only [Ex.text]
    rw [if_neg (by omega)]
    rfl
  rw [htext] at key
  have hv : ∃ p : Prop, ∃ _ : Decidable p, meaning L o (.num a) (.num b) = some (.num (truth p)) := by
    revert ho
    cases o <;> simp only [prec, meaning] <;> intro ho <;> first | exact ⟨_, _, rfl⟩ | cases ho
  obtain ⟨p, _, hp⟩ := hv
  simp only [Ex.val, Option.bind_some, hp, fnMeaning] at key
  refine ⟨_, ?_, key⟩
  unfold truth
  split_ifs
  · have : ⌊(1 : Rat) + 1 / 2⌋ = 1 := by rw [Int.floor_eq_iff]; norm_num
    rw [this]; norm_num
  · have : ⌊(0 : Rat) + 1 / 2⌋ = 0 := by rw [Int.floor_eq_iff]; norm_num
    rw [this]; norm_num

/-- The minus sign binds more than `^`: `-2^2` is the square of -2, not the opposite of the square of 2. -/
theorem C121_minus_violated (L : Lib) (e : Env) (hpow : L.pow 2 2 = 4) :
    expr L e [.op .minus, .num 2, .op .up, .num 2] = .ok (.num 4, []) := by
  have key := C121_value_partial L e (.bin .up (.neg (.num 2)) (.num 2)) [] trivial
  have hw : whole 2 = 2 := by decide +kernel
  have h1 : ¬ (0 : Rat) < -2 := by norm_num
  have h2 : ¬ (-2 : Rat) = 0 := by norm_num
  simpa [Ex.text, prec, leftPrec, rightPrec, Ex.val, Val.number, meaning, power, hw, h1, hpow] using key

/-- Zero raised to zero is zero, and so is zero raised to a negative number. -/
theorem C121_power_violated (L : Lib) (e : Env) (y : Rat) (rest : List Tok) (h : Ends rest) :
    expr L e (.num 0 :: .op .up :: .num y :: rest) = .ok (.num 0, rest) := by
  have key := C121_value_partial L e (.bin .up (.num 0) (.num y)) rest h
  simpa [Ex.text, prec, leftPrec, rightPrec, Ex.val, Val.number, meaning, power] using key

/-- The remainder of 7 after division by 3 is not equal to 1: it is `1 + 1e-14`. -/
theorem C121_mod_violated (L : Lib) (e : Env) :
    expr L e [.num 7, .op .mod, .num 3, .op .eq, .num 1] = .ok (.num 0, []) := by
  have key := C121_value_partial L e (.bin .eq (.bin .mod (.num 7) (.num 3)) (.num 1)) [] trivial
  have hw : remainder L (7 + 1 / 10 ^ 14) 3 = 1 + 1 / 10 ^ 14 := by
    unfold remainder
    rw [if_neg (by norm_num)]
    have : whole ((7 + 1 / 10 ^ 14) / 3) = 2 := by decide +kernel
    rw [this]; norm_num
  have h1 : ¬ ((1 : Rat) + 1 / 10 ^ 14 = 1) := by norm_num
  simp only [Ex.val, Option.bind_some, meaning] at key
  rw [if_pos (by norm_num), hw] at key
  simp only [truth, if_neg h1] at key
  exact key

/-- A number that counts as true may be false in AND: `0.5 AND 1` is 0, because AND drops the fractions. -/
theorem C121_and_violated (L : Lib) (e : Env) :
    expr L e [.num (1 / 2), .op .and, .num 1] = .ok (.num 0, []) := by
  have key := C121_value_partial L e (.bin .and (.num (1 / 2)) (.num 1)) [] trivial
  have hw : whole (1 / 2) = 0 := by decide +kernel
  have hw1 : whole 1 = 1 := by decide +kernel
  simp only [Ex.val, Option.bind_some, meaning, hw, hw1] at key
  exact key

/-! ### A concrete case -/

/-- A library for the example: the square, and nothing else. -/
private def lib0 : Lib := ⟨fun x y => if y = 2 then x * x else 1, fun _ x => x, 0⟩

/-- The variable `X` of the example. -/
private def xv : Var := ⟨0, false⟩

/-- `X` is 3. -/
private def env0 : Env := ⟨fun v => if v = xv then 3 else 0, fun _ => [], none, []⟩

/-- `10 - 4 - X * (1 + X) ^ 2 / 8 >= 0 OR X = 3`, as it stands in the line. -/
private def line0 : List Tok :=
  [.num 10, .op .minus, .num 4, .op .minus, .var xv, .op .times, .lp, .num 1, .op .plus, .var xv, .rp, .op .up, .num 2, .op .div,
   .num 8, .op .ge, .num 0, .op .or, .var xv, .op .eq, .num 3]

/-- The tree of the same expression. -/
private def tree0 : Ex :=
  .bin .or
    (.bin .ge
      (.bin .minus (.bin .minus (.num 10) (.num 4))
        (.bin .div (.bin .times (.var xv) (.bin .up (.bin .plus (.num 1) (.var xv)) (.num 2))) (.num 8)))
      (.num 0))
    (.bin .eq (.var xv) (.num 3))

example : tree0.text 0 = line0 := by decide +kernel

example : tree0.val lib0 env0 = some (.num 1) := by decide +kernel

example : expr lib0 env0 (line0 ++ [.then_, .num 100]) = .ok (.num 1, [.then_, .num 100]) := by decide +kernel

/-- An expression without a value: a string plus a number. -/
example : (Ex.bin .plus (.str [65]) (.num 1)).val lib0 env0 = none := by decide +kernel

end Verif.Basic
