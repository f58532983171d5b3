import Verif.Model.Basic
/-
The programs of the BASIC interpreter (see Model/Basic.lean): how the lines are kept (`parseinput`, `findline`) and how the
statements are executed (`exec` and the `cmd...` functions).  All lines cited are lines of
IPhreeqcMMS/IPhreeqc/src/phreeqcpp/PBasic.cpp.

Simplifications: those of Model/Basic.lean; DATA, READ, ON, DIM, ERASE, PRINT, PUT, INPUT and the commands that change the program
are not modelled (they are reported as `bad`); a line number has as many digits as it likes (`curline` is a `long`).
-/
namespace Verif.Basic

/-- A line of the program: number and tokens (`linerec`, PBasic.h). -/
abbrev Line := Nat × List Tok

/-- The place of the program for a line with number `n`, and the line entered there: an existing line with the number is removed,
and the new one inserted if it has any tokens.  1729-1762. -/
def enterAt (n : Nat) (t : List Tok) : List Line → List Line
  | [] => if t = [] then [] else [(n, t)]
  | (m, u) :: r =>
    if m < n then (m, u) :: enterAt n t r
    else if m = n then (if t = [] then r else (n, t) :: r)
    else (if t = [] then (m, u) :: r else (n, t) :: (m, u) :: r)

/-- `parseinput` for a line that was cut into its number and tokens: a line without number (0) is not kept.  1708-1765. -/
def enter (p : List Line) (x : Line) : List Line := if x.1 = 0 then p else enterAt x.1 x.2 p

/-- A place in the program: the rest of the line and the lines after it (`LINK->t`, `stmtline`). -/
abbrev Pos := List Tok × List Line

/-- `findline`: the line with the number and what follows it.  5328-5336. -/
def findline (n : Int) : List Line → Option Pos
  | [] => none
  | (m, t) :: r => if (m : Int) = n then some (t, r) else findline n r

/-- A loop or call that was begun (`looprec`, PBasic.h): with the place to go back to. -/
inductive Loop where
  | for_ (v : Var) (max step : Rat) (home : Pos)
  | while_ (home : Pos)
  | gosub (home : Pos)
deriving DecidableEq, Repr

/-- The state of a run: the place (`stmttok`, `stmtline`), the variables, and the loops begun, the latest first (`loopbase`). -/
structure St where
  pos : Pos
  env : Env
  loops : List Loop

/-- What a statement leads to: the run goes on or is over. -/
inductive Next where
  | go (s : St)
  | halt (e : Env)

/-- Assignment to a number variable. -/
def Env.setNum (e : Env) (v : Var) (r : Rat) : Env := { e with num := fun w => if w = v then r else e.num w }

/-- Assignment to a string variable. -/
def Env.setStr (e : Env) (v : Var) (s : List Nat) : Env := { e with str := fun w => if w = v then s else e.str w }

/-- `iseos`, 5314-5319. -/
def iseos : List Tok → Bool
  | [] => true
  | .else_ :: _ => true
  | .colon :: _ => true
  | _ => false

/-- `skiptoeos`, 5321-5326. -/
def skiptoeos : List Tok → List Tok
  | [] => []
  | .else_ :: t => .else_ :: t
  | .colon :: t => .colon :: t
  | _ :: t => skiptoeos t

/-- `if (!V.elseflag && !iseos (&V)) checkextra (&V);`, 7034-7035. -/
def finish (s : St) : R Next := if iseos s.pos.1 then .ok (.go s) else .error .bad

/-- `findvar` for a variable that is no array, 1978-1996. -/
def findvar : List Tok → R (Var × List Tok)
  | .var v :: t => if t.head? = some .lp then .error .bad else .ok (v, t)
  | _ => .error .bad

/-- `require`, 1925-1950. -/
def require (k : Tok) : List Tok → R (List Tok)
  | a :: t => if a = k then .ok t else .error .bad
  | [] => .error .bad

/-- `cmdlet`, 6101-6138. -/
def cmdlet (L : Lib) (s : St) (t : List Tok) : R Next := do
  let (v, t) ← findvar t
  let t ← require (.op .eq) t
  let (x, t) ← expr L s.env t
  match x with
  | .num r => if v.str then .error .bad else finish { s with pos := (t, s.pos.2), env := s.env.setNum v r }
  | .str w => if v.str then finish { s with pos := (t, s.pos.2), env := s.env.setStr v w } else .error .bad

/-- `cmdgoto`, 6140-6146: `intexpr` rounds to the nearest whole number. -/
def cmdgoto (L : Lib) (p : List Line) (s : St) (t : List Tok) : R Next := do
  let (r, _) ← realexpr L s.env t
  match findline ⌊r + 1 / 2⌋ p with
  | some q => .ok (.go { s with pos := q })
  | none => .error .bad

/-- The search for the ELSE of an IF, 6157-6171: `i` counts the IFs inside. -/
def skipif : Nat → List Tok → List Tok
  | _, [] => []
  | i, .if_ :: t => skipif (i + 1) t
  | 0, .else_ :: t => t
  | i + 1, .else_ :: t => skipif i t
  | i, _ :: t => skipif i t

/-- `cmdif`, 6148-6176. -/
def cmdif (L : Lib) (p : List Line) (s : St) (t : List Tok) : R Next := do
  let (r, t) ← realexpr L s.env t
  let t ← require .then_ t
  let t := if r = 0 then skipif 0 t else t
  match t with
  | .num _ :: _ => cmdgoto L p s t
  | _ => .ok (.go { s with pos := (t, s.pos.2) })

/-- How far a search for the end of a loop got in a line: found, with the rest of the line, or not yet, with the count. -/
inductive Hunt where
  | found (t : List Tok)
  | on (i j : Nat)

/-- The part of `skiploop` inside a line, 6201-6206: `up` opens and `dn` closes a loop. -/
def huntLine (up dn : Tok) : Nat → List Tok → Hunt
  | i, [] => .on i 0
  | i, a :: t =>
    if a = up then huntLine up dn (i + 1) t
    else if a = dn then (match i with | 0 => .found t | i + 1 => huntLine up dn i t)
    else huntLine up dn i t

/-- `skiploop`, 6184-6216; `none` if the program ends first. -/
def skiploop (up dn : Tok) : Nat → List Tok → List Line → Option Pos
  | i, t, [] => match huntLine up dn i t with | .found t => some (t, []) | .on _ _ => none
  | i, t, (n, u) :: m =>
    match huntLine up dn i t with
    | .found t => some (t, (n, u) :: m)
    | .on i _ => skiploop up dn i u m

/-- The part of the search of `cmdfor` inside a line, 6262-6280: `i` counts the loops of other variables (or of an unnamed NEXT),
`j` those of the same variable. -/
def huntFor (v : Var) : Nat → Nat → List Tok → Hunt
  | i, j, [] => .on i j
  | i, j, .for_ :: t => if t.head? = some (.var v) then huntFor v i (j + 1) t else huntFor v (i + 1) j t
  | i, j, .next :: t =>
    if t.head? = some (.var v) then (match j with | 0 => .found t | j + 1 => huntFor v i j t)
    else (match i with | 0 => .found t | i + 1 => huntFor v i j t)
  | i, j, _ :: t => huntFor v i j t

/-- The search of `cmdfor` for the end of a loop that is not entered, 6243-6282; `none` if the program ends first. -/
def skipfor (v : Var) : Nat → Nat → List Tok → List Line → Option Pos
  | i, j, t, [] => match huntFor v i j t with | .found t => some (t, []) | .on _ _ => none
  | i, j, t, (n, u) :: m =>
    match huntFor v i j t with
    | .found t => some (t, (n, u) :: m)
    | .on i j => skipfor v i j u m

/-- The loop is not entered, 6239-6240. -/
def passed (step x max : Rat) : Bool := (0 ≤ step ∧ max < x) ∨ (step ≤ 0 ∧ x < max)

/-- The optional STEP, 6228-6234. -/
def readstep (L : Lib) (e : Env) : List Tok → R (Rat × List Tok)
  | .step_ :: t => realexpr L e t
  | t => .ok (1, t)

/-- `cmdfor`, 6218-6298.  The first value is assigned before the limit and the step are read. -/
def cmdfor (L : Lib) (s : St) (t : List Tok) : R Next := do
  let (v, t) ← findvar t
  if v.str then .error .bad
  else do
    let t ← require (.op .eq) t
    let (x, t) ← realexpr L s.env t
    let e := s.env.setNum v x
    let t ← require .to_ t
    let (max, t) ← realexpr L e t
    let (step, t) ← readstep L e t
    if passed step x max then
      match skipfor v 0 0 t s.pos.2 with
      | some (t, m) => finish { s with pos := (skiptoeos t, m), env := e }
      | none => .error .bad
    else finish { pos := (t, s.pos.2), env := e, loops := .for_ v max step (t, s.pos.2) :: s.loops }

/-- The loop record that a NEXT belongs to: records of other loops are dropped on the way, a call stops the search.  6311-6331. -/
def findfor (v : Option Var) : List Loop → Option (Var × Rat × Rat × Pos × List Loop)
  | [] => none
  | .gosub _ :: _ => none
  | .while_ _ :: r => findfor v r
  | .for_ w max step home :: r => if v = none ∨ v = some w then some (w, max, step, home, r) else findfor v r

/-- The variable after NEXT, if any, 6307-6310. -/
def nextvar (t : List Tok) : R (Option Var × List Tok) :=
  if iseos t then .ok (none, t) else (findvar t).map fun p => (some p.1, p.2)

/-- `cmdnext`, 6300-6346. -/
def cmdnext (s : St) (t : List Tok) : R Next := do
  let (v, t) ← nextvar t
  match findfor v s.loops with
  | none => .error .bad
  | some (w, max, step, home, r) =>
    let x := s.env.num w + step
    let e := s.env.setNum w x
    if (step < 0 ∨ x ≤ max) ∧ (0 < step ∨ max ≤ x) then
      finish { pos := home, env := e, loops := .for_ w max step home :: r }
    else finish { pos := (t, s.pos.2), env := e, loops := r }

/-- `cmdwhile`, 6348-6395. -/
def cmdwhile (L : Lib) (s : St) (t : List Tok) : R Next :=
  if iseos t then finish { s with pos := (t, s.pos.2), loops := .while_ (t, s.pos.2) :: s.loops }
  else do
    let (r, u) ← realexpr L s.env t
    if r ≠ 0 then finish { s with pos := (u, s.pos.2), loops := .while_ (t, s.pos.2) :: s.loops }
    else
      match skiploop .while_ .wend 0 u s.pos.2 with
      | none => .error .bad
      | some (u, m) => finish { s with pos := (skiptoeos u, m) }

/-- The loop record that a WEND belongs to, 6408-6427. -/
def findwhile : List Loop → Option (Pos × List Loop)
  | [] => none
  | .gosub _ :: _ => none
  | .for_ _ _ _ _ :: r => findwhile r
  | .while_ home :: r => some (home, r)

/-- A condition that may be missing, 6428-6432 and 6439-6443: the value (`d` if missing) and the rest. -/
def condition (L : Lib) (e : Env) (d : Rat) (t : List Tok) : R (Rat × List Tok) :=
  if iseos t then .ok (d, t) else realexpr L e t

/-- `cmdwend`, 6397-6452: a condition after WEND ends the loop if it is true, one after WHILE if it is false. -/
def cmdwend (L : Lib) (s : St) (t : List Tok) : R Next :=
  match findwhile s.loops with
  | none => .error .bad
  | some (home, r) => do
    let (q, t) ← condition L s.env 0 t
    if q ≠ 0 then finish { s with pos := (t, s.pos.2), loops := r }
    else do
      let (c, u) ← condition L s.env 1 home.1
      if c ≠ 0 then finish { s with pos := (u, home.2), loops := .while_ home :: r }
      else finish { s with pos := (t, s.pos.2), loops := r }

/-- `cmdgosub`, 6454-6471. -/
def cmdgosub (L : Lib) (p : List Line) (s : St) (t : List Tok) : R Next :=
  cmdgoto L p { s with loops := .gosub (t, s.pos.2) :: s.loops } t

/-- The call that a RETURN belongs to: loops begun since then are dropped.  6484-6504. -/
def findgosub : List Loop → Option (Pos × List Loop)
  | [] => none
  | .gosub home :: r => some (home, r)
  | .for_ _ _ _ _ :: r => findgosub r
  | .while_ _ :: r => findgosub r

/-- `cmdreturn`, 6473-6510. -/
def cmdreturn (s : St) : R Next :=
  match findgosub s.loops with
  | none => .error .bad
  | some (home, r) => finish { s with pos := (skiptoeos home.1, home.2), loops := r }

/-- The values after SAVE and PUNCH: expressions, with any commas and semicolons between them; `n` bounds the loop.  5569-5578 and
5907-5916. -/
def items (L : Lib) (e : Env) : Nat → List Tok → R (List Val × List Tok)
  | 0, _ => .error .dry
  | n + 1, t =>
    if iseos t then .ok ([], t)
    else
      match t with
      | .semi :: t => items L e n t
      | .comma :: t => items L e n t
      | _ => do
        let (v, t) ← expr L e t
        let (vs, t) ← items L e n t
        .ok (v :: vs, t)

/-- The effect of SAVE for the values in turn: `rate_moles` becomes the value, a string is an error.  5579-5586. -/
def saveAll (e : Env) : List Val → R Env
  | [] => .ok e
  | .num r :: vs => saveAll { e with saved := some r } vs
  | .str _ :: _ => .error .bad

/-- `cmdsave`, 5563-5588. -/
def cmdsave (L : Lib) (s : St) (t : List Tok) : R Next := do
  let (vs, t) ← items L s.env (t.length + 1) t
  let e ← saveAll s.env vs
  finish { s with pos := (t, s.pos.2), env := e }

/-- `cmdpunch`, 5899-6040: the values are written one after another (the format is not modelled). -/
def cmdpunch (L : Lib) (s : St) (t : List Tok) : R Next := do
  let (vs, t) ← items L s.env (t.length + 1) t
  finish { s with pos := (t, s.pos.2), env := { s.env with out := s.env.out ++ vs } }

/-- The colons in front of a statement, 6816-6817. -/
def dropcolons : List Tok → List Tok
  | .colon :: t => dropcolons t
  | t => t

/-- A statement of the program `p`: the `switch` of `exec`, 6838-7033. -/
def statement (L : Lib) (p : List Line) (s : St) (k : Tok) (t : List Tok) : R Next :=
  match k with
  | .rem => finish { s with pos := (t, s.pos.2) }
  | .let_ => cmdlet L s t
  | .var v => cmdlet L s (.var v :: t)
  | .goto_ => cmdgoto L p s t
  | .if_ => cmdif L p s t
  | .else_ => .ok (.go { s with pos := ([], s.pos.2) })
  | .end_ => .ok (.halt s.env)
  | .for_ => cmdfor L s t
  | .next => cmdnext s t
  | .while_ => cmdwhile L s t
  | .wend => cmdwend L s t
  | .gosub => cmdgosub L p s t
  | .ret => cmdreturn s
  | .save => cmdsave L s t
  | .punch => cmdpunch L s t
  | _ => .error .bad

/-- One turn of the loops of `exec`, 6809-7047: a statement, or, at the end of a line, the step to the next line; after the last line
the run is over. -/
def step (L : Lib) (p : List Line) (s : St) : R Next :=
  match dropcolons s.pos.1 with
  | k :: t => statement L p s k t
  | [] =>
    match s.pos.2 with
    | [] => .ok (.halt s.env)
    | (_, t) :: m => .ok (.go { s with pos := (t, m) })

/-- `j` turns of `exec`. -/
def iter (L : Lib) (p : List Line) : Nat → St → R Next
  | 0, s => .ok (.go s)
  | j + 1, s =>
    match step L p s with
    | .ok (.go s') => iter L p j s'
    | r => r

/-- The variables at the beginning of a run: `clearvars`, 446-490. -/
def cleared : Env := ⟨fun _ => 0, fun _ => [], none, []⟩

/-- The state at the beginning of a run: `cmdrun`, 5519-5561. -/
def start (p : List Line) : St := ⟨([], p), cleared, []⟩

end Verif.Basic
