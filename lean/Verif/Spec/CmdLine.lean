import Verif.Model.CmdLine
/-
Vocabulary for C95 and C96: a command line as a list of options.
-/
namespace Verif.CmdLine

/-- Options without argument. -/
inductive Flag where
  | batch | esp | rosenbrock | print | period | graph
deriving DecidableEq

/-- How a flag is written. -/
def Flag.text : Flag → Text
  | .batch => "-batch".toList
  | .esp => "-esp".toList
  | .rosenbrock => "-rosenbrock".toList
  | .print => "-print".toList
  | .period => "-por".toList
  | .graph => "-rtg".toList

/-- Whether a flag is on. -/
def Args.has (a : Args) : Flag → Bool
  | .batch => a.batch
  | .esp => a.esp
  | .rosenbrock => a.rosenbrock
  | .print => a.print
  | .period => a.period
  | .graph => a.graph

/-- An option: the name of the control file, alone or after `-C`; the environment file; a flag; a
control variable with its value. -/
inductive Opt where
  | file (f : Text)
  | control (f : Text)
  | env (f : Text)
  | flag (f : Flag)
  | set (name value : Text)

/-- The arguments of an option. -/
def Opt.words : Opt → List Text
  | .file f => [f]
  | .control f => ["-C".toList ++ f]
  | .env f => ["-E".toList ++ f]
  | .flag f => [f.text]
  | .set n v => ["-set".toList, n, v]

/-- A file name given alone does not start with a minus sign. -/
def Opt.Ok : Opt → Prop
  | .file f => f.head? ≠ some '-'
  | _ => True

/-- The control file named by an option. -/
def Opt.controlFile? : Opt → Option Text
  | .file f => some f
  | .control f => some f
  | _ => none

/-- The environment file named by an option. -/
def Opt.envFile? : Opt → Option Text
  | .env f => some f
  | _ => none

/-- The control variable set by an option. -/
def Opt.setting? : Opt → Option (Text × Text)
  | .set n v => some (n, v)
  | _ => none

/-- The arguments of a list of options. -/
def words (opts : List Opt) : List Text := opts.flatMap Opt.words

/-- What the options ask for: the last control file named (`control` if none), the last environment
file, all settings in order, exactly the flags given, and the level of debugging. -/
structure Means (opts : List Opt) (debug : Int) (a : Args) : Prop where
  control : a.control = ((opts.filterMap Opt.controlFile?).getLast?).getD "control".toList
  env : a.env = (opts.filterMap Opt.envFile?).getLast?
  sets : a.sets = opts.filterMap Opt.setting?
  flags : ∀ f, a.has f = true ↔ Opt.flag f ∈ opts
  level : a.debug = debug

end Verif.CmdLine
