import Verif.Model.CallModules
/-
Specification for C19.
-/
namespace Verif.CallModules

/-- The documented order (`call_modules_webmod.F:55-60` prints it at the start of every run). -/
def documented : List String :=
  ["io", "soltab_prms", "basin_topg", "obs_chem", "obs_webmod", "temp_1sta_prms", "precip_web",
   "irrig_web", "ccsolrad_web", "potet_hamon_prms", "intcp_prms", "nwsmelt_topg", "topmod_chem",
   "top2clark", "route_clark", "webmod_res", "phreeq_mms", "web_sum"]

/-- The routines of each phase in order; not every module has one for running and for cleaning up. -/
def routines : Phase → List String
  | .declare =>
    ["iodecl", "stdecl", "basdecl", "obsc_decl", "obsdecl", "t1decl", "pptdecl", "irrdecl", "csoldecl",
     "petdecl", "intdecl", "nwsmdecl", "topmdecl", "top2cdecl", "routecdecl", "webrdecl", "phreeqmms_decl",
     "sumbdecl"]
  | .initialize =>
    ["ioinit", "stinit", "basinit", "obsc_init", "obsinit", "t1init", "pptinit", "irrinit", "csolinit",
     "petinit", "intinit", "nwsminit", "topminit", "top2cinit", "routecinit", "webrinit", "phreeqmms_init",
     "sumbinit"]
  | .run =>
    ["iorun", "obsc_run", "obsrun", "t1run", "pptrun", "irrrun", "csolrun", "petrun", "intrun",
     "nwsmrun", "topmrun", "top2crun", "routecrun", "webrrun", "phreeqmms_run", "sumbrun"]
  | .cleanup => ["ioclean", "obsc_clean", "nwsmclean", "phreeqmms_clean"]

/-- The modules called, with their results, and the result of the phase are as promised. -/
structure Orderly (calls : List (String × Int)) (ret : Int) : Prop where
  /-- in the documented order, each at most once, none skipped -/
  order : calls.map (·.1) <+: documented
  /-- success: every module was called and succeeded -/
  success : ret = 0 ↔ calls.map (·.1) = documented ∧ ∀ c ∈ calls, c.2 = 0
  /-- failure: the last module called reported this error, all earlier ones succeeded -/
  failure : ret ≠ 0 → ∃ before m, calls = before ++ [(m, ret)] ∧ ∀ c ∈ before, c.2 = 0

/-- A run of module calls: starting from `w`, each listed module call returns the listed value, and the
world at the end is `w'`.  `call m` is what calling module `m` does. -/
def Runs {W} (call : String → W → Int × W) : W → List (String × Int) → W → Prop
  | w, [], w' => w = w'
  | w, (m, r) :: rest, w' => (call m w).1 = r ∧ Runs call (call m w).2 rest w'

/-- What a call of the named module does in a phase. -/
def named {W} (act : String → W → Int × W) (ph : Phase) (name : String) (w : W) : Int × W :=
  match modules.find? (·.name = name) with
  | some m => callModule act ph m w
  | none => (0, w)

/-- A supported simulation mode. -/
def Supported (s : List Char) : Prop :=
  "DAILY".toList <+: s ∨ "STORM".toList <+: s ∨ "TRENT".toList <+: s ∨ "CFGI".toList <+: s

/-- The phases of a run over `n` records. -/
def phases (n : Nat) : List Phase :=
  .declare :: .initialize :: (List.replicate n .run ++ [.cleanup])

end Verif.CallModules
