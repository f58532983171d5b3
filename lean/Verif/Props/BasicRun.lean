import Verif.Lemmas.BasicRun4
/-
C122 and C123: BASIC programs.
-/
namespace Verif.Basic

/-! ### C122: the lines kept -/

/-- However the lines are typed in, the program consists of the last non-empty definition of every number (other than 0), in the order
of the numbers. -/
theorem C122_kept (xs : List Line) :
    (xs.foldl enter []).Pairwise (fun a b => a.1 < b.1) ∧
    ∀ n t, (n, t) ∈ xs.foldl enter [] ↔ n ≠ 0 ∧ t ≠ [] ∧ t = lastFor n xs :=
  entered xs

/-- Two ways of typing that end with the same definition of every number give the same program. -/
theorem C122_order (xs ys : List Line) (h : ∀ n ≠ 0, lastFor n xs = lastFor n ys) : xs.foldl enter [] = ys.foldl enter [] := by
  refine sorted_ext (entered xs).1 (entered ys).1 ?_
  rintro ⟨n, t⟩
  rw [(entered xs).2, (entered ys).2]
  constructor
  · rintro ⟨h0, h1, h2⟩; exact ⟨h0, h1, by rw [← h n h0, h2]⟩
  · rintro ⟨h0, h1, h2⟩; exact ⟨h0, h1, by rw [h n h0, h2]⟩

/-- A jump to the line `n` comes to the last definition of the number, and what follows there are the lines with greater numbers; a
jump to a number that is not defined is an error. -/
theorem C122_found (xs : List Line) (n : Int) :
    findline n (xs.foldl enter []) =
      if n ≤ 0 ∨ lastFor n.toNat xs = [] then none
      else some (lastFor n.toNat xs, (xs.foldl enter []).filter fun x => n < x.1) := by
  split_ifs with h
  · refine findline_none ?_
    rintro ⟨m, t⟩ hm heq
    have heq : (m : Int) = n := heq
    obtain ⟨h0, h1, h2⟩ := ((entered xs).2 m t).1 hm
    rcases h with h | h
    · omega
    · rw [← heq, Int.toNat_natCast, ← h2] at h
      exact h1 h
  · have hn : n = ((n.toNat : Nat) : Int) := by omega
    have hm : (n.toNat, lastFor n.toNat xs) ∈ xs.foldl enter [] :=
      ((entered xs).2 _ _).2 ⟨by omega, fun h' => h (Or.inr h'), rfl⟩
    have key := findline_mem (entered xs).1 hm
    rw [← hn] at key
    rw [key]
    congr 2
    apply List.filter_congr
    intro x _
    apply decide_eq_decide.2
    omega

/-- Lines typed out of order, one of them replaced and one deleted. -/
example : [(20, [Tok.end_]), (10, [.save, .num 1]), (30, [.rem]), (10, [.save, .num 2]), (30, []), (0, [.end_])].foldl enter [] =
    [(10, [Tok.save, .num 2]), (20, [.end_])] := by decide +kernel

/-! ### C123: structured programs -/

/-- A structured program run from its text does what it means: if its meaning is to finish with certain values, the run halts with
these values; if its meaning is an error, the run stops with an error.  Missing: GOTO, ON, arrays, DATA and READ, strings assigned to
parts, and conditions after WEND. -/
theorem C123_runs_partial (L : Lib) (p : List Line) (main : Stm) (subs : Nat → Option Stm) (h : Layout p main subs) (n : Nat) :
    (∀ e, Task.run L subs n (.stm main) cleared = .done e → ∃ j, iter L p j (start p) = .ok (.halt e)) ∧
    (Task.run L subs n (.stm main) cleared = .bad → ∃ j, iter L p j (start p) = .error .bad) := by
  have key := whole_program L h n
  constructor
  · intro e he; rw [he] at key; exact key
  · intro he; rw [he] at key; exact key

/-- If the meaning of the program has no end, the run has no end. -/
theorem C123_forever_partial (L : Lib) (p : List Line) (main : Stm) (subs : Nat → Option Stm) (h : Layout p main subs)
    (hm : ∀ n, Task.run L subs n (.stm main) cleared = .more) (j : Nat) : ∃ st, iter L p j (start p) = .ok (.go st) := by
  have key := whole_program L h j
  rw [hm j] at key
  obtain ⟨i, st, hi, hst⟩ := key
  exact iter_less L p hst hi

/-- The meaning of a program does not depend on the bound on loop turns and calls, once it has one. -/
theorem C123_bound (L : Lib) (subs : Nat → Option Stm) (m n : Nat) (hmn : m ≤ n) (main : Stm) (e : Env)
    (h : Task.run L subs m (.stm main) e ≠ .more) : Task.run L subs n (.stm main) e = Task.run L subs m (.stm main) e := by
  induction hmn with
  | refl => rfl
  | step _ ih => rw [run_mono L subs _ _ _ (by rw [ih]; exact h), ih]

/-- A subroutine cannot go on with a loop of its caller: a NEXT or WEND without a loop begun since the call is an error. -/
theorem C123_call (L : Lib) (p : List Line) (e : Env) (home : Pos) (ls : List Loop) (t : List Tok) (m : List Line)
    (x : Next) :
    step L p ⟨(.next :: t, m), e, .gosub home :: ls⟩ ≠ .ok x ∧
    step L p ⟨(.wend :: t, m), e, .gosub home :: ls⟩ ≠ .ok x := by
  constructor
  · have h : step L p ⟨(.next :: t, m), e, .gosub home :: ls⟩ = cmdnext ⟨(.next :: t, m), e, .gosub home :: ls⟩ t := rfl
    rw [h]
    unfold cmdnext
    cases nextvar t with
    | error y => intro h; cases h
    | ok v => intro h; cases h
  · have h : step L p ⟨(.wend :: t, m), e, .gosub home :: ls⟩ = .error .bad := rfl
    rw [h]
    intro h
    cases h

/-- A loop that is not to be entered, with a loop of the same variable inside that ends with an unnamed NEXT: the search for the end
of the outer loop stops at the end of the inner one, and the run ends with an error at the NEXT of the outer loop. -/
theorem C123_unnamed_violated (L : Lib) (v : Var) (hv : v.str = false) (p : List Line) (n₁ n₂ n₃ n₄ n₅ : Nat)
    (hp : p = [(n₁, [.for_, .var v, .op .eq, .num 1, .to_, .num 0]), (n₂, [.for_, .var v, .op .eq, .num 1, .to_, .num 3]),
      (n₃, [.rem]), (n₄, [.next]), (n₅, [.next])]) :
    (∃ e, Task.run L (fun _ => none) 1
      (.stm (.for_ v (.num 1) (.num 0) none (.line n₂) (.for_ v (.num 1) (.num 3) none (.line n₃) .rem (.line n₄) false)
        (.line n₅) false)) cleared = .done e) ∧
    ∃ j, iter L p j (start p) = .error .bad := by
  have ho : Over 1 0 1 := by unfold Over; norm_num
  constructor
  · refine ⟨cleared.setNum v 1, ?_⟩
    simp only [Task.run, Stm.does, Ex.number, Ex.val, Option.bind_some, Val.number, assign_num hv, Res.bind, Option.getD_none,
      if_pos ho]
  · refine ⟨4, ?_⟩
    have h1 : step L p (start p) = .ok (.go ⟨([.for_, .var v, .op .eq, .num 1, .to_, .num 0],
        [(n₂, [.for_, .var v, .op .eq, .num 1, .to_, .num 3]), (n₃, [.rem]), (n₄, [.next]), (n₅, [.next])]), cleared, []⟩) := by
      unfold start step; rw [hp]; rfl
    have h2 := step_for L p v hv (.num 1) (.num 0) none
      ([], [(n₂, [.for_, .var v, .op .eq, .num 1, .to_, .num 3]), (n₃, [.rem]), (n₄, [.next]), (n₅, [.next])]) rfl cleared []
    have h3 : sf v 0 0 ([], [(n₂, [.for_, .var v, .op .eq, .num 1, .to_, .num 3]), (n₃, [.rem]), (n₄, [.next]), (n₅, [.next])]) =
        some ([], [(n₅, [.next])]) := by
      simp [sf, skipfor, huntFor]
    rw [h3] at h2
    have h2 : step L p ⟨([.for_, .var v, .op .eq, .num 1, .to_, .num 0],
        [(n₂, [.for_, .var v, .op .eq, .num 1, .to_, .num 3]), (n₃, [.rem]), (n₄, [.next]), (n₅, [.next])]), cleared, []⟩ =
      if Over 1 0 1 then .ok (.go ⟨([], [(n₅, [.next])]), cleared.setNum v 1, []⟩) else _ := h2
    rw [if_pos ho] at h2
    rw [iter_step L p h1, iter_step L p h2]
    rfl

/-! ### A concrete case -/

/-- A library for the example. -/
private def lib1 : Lib := ⟨fun _ _ => 1, fun _ x => x, 0⟩

private def iv : Var := ⟨0, false⟩
private def sv : Var := ⟨1, false⟩
private def wv : Var := ⟨2, false⟩

/-- The lines
```
10 S = 0 : FOR I = 1 TO 3
20 GOSUB 100
30 NEXT I
40 WHILE S > 5 : S = S - 4 : WEND
50 IF S = 2 THEN PUNCH S : W = 7 ELSE W = 1
60 SAVE S * 10 + W
70 END
100 FOR W = I TO 1 STEP -1 : S = S + W : NEXT
110 RETURN
``` -/
private def prog : List Line :=
  [(10, [.var sv, .op .eq, .num 0, .colon, .for_, .var iv, .op .eq, .num 1, .to_, .num 3]),
   (20, [.gosub, .num 100]),
   (30, [.next, .var iv]),
   (40, [.while_, .var sv, .op .gt, .num 5, .colon, .var sv, .op .eq, .var sv, .op .minus, .num 4, .colon, .wend]),
   (50, [.if_, .var sv, .op .eq, .num 2, .then_, .punch, .var sv, .colon, .var wv, .op .eq, .num 7, .else_, .var wv, .op .eq, .num 1]),
   (60, [.save, .var sv, .op .times, .num 10, .op .plus, .var wv]),
   (70, [.end_]),
   (100, [.for_, .var wv, .op .eq, .var iv, .to_, .num 1, .step_, .op .minus, .num 1, .colon, .var sv, .op .eq, .var sv, .op .plus,
     .var wv, .colon, .next]),
   (110, [.ret])]

/-- The subroutine at 100. -/
private def sub100 : Stm :=
  .for_ wv (.var iv) (.num 1) (some (.neg (.num 1))) .colon (.let_ false sv (.bin .plus (.var sv) (.var wv))) .colon false

private def subs0 (n : Nat) : Option Stm := if n = 100 then some sub100 else none

/-- The main part. -/
private def main0 : Stm :=
  .seq (.let_ false sv (.num 0)) .colon
    (.seq (.for_ iv (.num 1) (.num 3) none (.line 20) (.gosub 100) (.line 30) true) (.line 40)
      (.seq (.while_ (.bin .gt (.var sv) (.num 5)) .colon (.let_ false sv (.bin .minus (.var sv) (.num 4))) .colon) (.line 50)
        (.seq (.ifElse (.bin .eq (.var sv) (.num 2)) (.seq (.punch (.var sv)) .colon (.let_ false wv (.num 7)))
            (.let_ false wv (.num 1))) (.line 60)
          (.save (.bin .plus (.bin .times (.var sv) (.num 10)) (.var wv))))))

private theorem layout0 : Layout prog main0 subs0 := by
  constructor
  · refine ⟨by decide +kernel, 10, _, _, _, rfl, ?_, Or.inr ⟨.line 70, ([], prog.drop 7), by decide +kernel, rfl⟩⟩
    decide +kernel
  · intro n b hb
    unfold subs0 at hb
    split_ifs at hb with h
    subst h
    cases hb
    exact ⟨by decide +kernel, .line 110, ([], []), by decide +kernel, by decide +kernel⟩

/-- What a result saves and punches. -/
private def Res.shows : Res → Option (Option Rat × List Val)
  | .done e => some (e.saved, e.out)
  | _ => none

/-- What a run saves and punches. -/
private def shown : R Next → Option (Option Rat × List Val)
  | .ok (.halt e) => some (e.saved, e.out)
  | _ => none

/-- 1 + 2 + 1 + 3 + 2 + 1 = 10, 10 - 4 - 4 = 2, so 2 is punched and 27 saved. -/
example : (Task.run lib1 subs0 20 (.stm main0) cleared).shows = some (some 27, [.num 2]) := by decide +kernel

example : shown (iter lib1 prog 100 (start prog)) = some (some 27, [.num 2]) := by decide +kernel

/-- A program without end: `10 WHILE 1 : WEND`. -/
example : Layout [(10, [.while_, .num 1, .colon, .rem]), (20, [.wend])] (.while_ (.num 1) .colon .rem (.line 20)) (fun _ => none) :=
  ⟨⟨by decide +kernel, 10, _, _, ([], []), rfl, by decide +kernel, Or.inl rfl⟩, fun _ _ h => by cases h⟩

example (n : Nat) : Task.run lib1 (fun _ => none) n (.stm (.while_ (.num 1) .colon .rem (.line 20))) cleared = .more := by
  have h : ∀ n, Task.run lib1 (fun _ => none) n (.again (.num 1) .rem) cleared = .more := by
    intro n
    induction n with
    | zero => rfl
    | succ n ih =>
      show (if (1 : Rat) = 0 then .done cleared else Task.run lib1 (fun _ => none) n (.again (.num 1) .rem) cleared) = _
      rw [if_neg (by norm_num), ih]
  cases n with
  | zero => rfl
  | succ n =>
    show (if (1 : Rat) = 0 then .done cleared else Task.run lib1 (fun _ => none) n (.again (.num 1) .rem) cleared) = _
    rw [if_neg (by norm_num), h n]

end Verif.Basic
