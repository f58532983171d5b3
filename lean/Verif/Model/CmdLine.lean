import Verif.Model.CText
/-
The command line: mmf_c/src/parse_args.c (`parse_args`), with the arrays of mmf.c:70-73.
-/
namespace Verif.CmdLine
open Verif.CText

/-- One argument. -/
abbrev Text := List Char

/-- The globals set by `parse_args` (globals.h:92-105) and the `-set` options in order. -/
structure Args where
  debug : Int
  control : Text
  env : Option Text
  batch : Bool
  esp : Bool
  rosenbrock : Bool
  print : Bool
  period : Bool
  graph : Bool
  sets : List (Text × Text)
deriving DecidableEq

/-- parse_args.c:94-95, globals.h:94-105. -/
def start : Args := ⟨0, "control".toList, none, false, false, false, false, false, false, []⟩

/-- `!strncmp(argv[i], p, strlen(p))`: the argument starts with `p`. -/
def starts (p : String) (x : Text) : Bool := p.toList.isPrefixOf x

/-- The kinds of arguments told apart in parse_args.c:113-151. -/
inductive Word where
  | debug
  | control (f : Text)
  | env (f : Text)
  | batch | esp | rosenbrock | print | period | graph
  | set
deriving DecidableEq

/-- The chain of comparisons, parse_args.c:113-151. -/
def classify (x : Text) : Word :=
  if x = "-debug".toList then .debug
  else if starts "-C" x then .control (x.drop 2)
  else if starts "-E" x then .env (x.drop 2)
  else if starts "-batch" x then .batch
  else if starts "-esp" x then .esp
  else if starts "-rosenbrock" x then .rosenbrock
  else if starts "-print" x then .print
  else if starts "-por" x then .period
  else if starts "-rtg" x then .graph
  else if starts "-set" x then .set
  else .control x

/-- parse_args.c:112-152.  `none` is undefined behaviour: `atoi` or `strdup` of the NULL after the last
argument, or more than the 100 entries allocated in mmf.c:71-72. -/
def parse (a : Args) : List Text → Option Args
  | [] => some a
  | x :: r =>
    match classify x with
    | .debug => if r = [] then none else parse { a with debug := atoi (r.headD []) } r
    | .control f => parse { a with control := f } r
    | .env f => parse { a with env := some f } r
    | .batch => parse { a with batch := true } r
    | .esp => parse { a with esp := true } r
    | .rosenbrock => parse { a with rosenbrock := true } r
    | .print => parse { a with print := true } r
    | .period => parse { a with period := true } r
    | .graph => parse { a with graph := true } r
    | .set =>
      match r with
      | n :: v :: r' => if a.sets.length < 100 then parse { a with sets := a.sets ++ [(n, v)] } r' else none
      | _ => none

/-- `parse_args`, parse_args.c:89-154, for the arguments after the program name. -/
def parseArgs (args : List Text) : Option Args := parse start args

/-- The text after the last `c`, if there is one (`strrchr`). -/
def afterLast (c : Char) (s : Text) : Option Text :=
  if c ∈ s then some (s.reverse.takeWhile (· ≠ c)).reverse else none

/-- The model name, parse_args.c:100-105. -/
def modelName (argv0 : Text) : Text :=
  match afterLast '/' argv0 with
  | some t => t
  | none => match afterLast '\\' argv0 with
    | some t => t
    | none => argv0

end Verif.CmdLine
