import Verif.Model.Control
/-
Model of the fixed module sequence: `call_modules` (`webmod.d/src/call_modules_webmod.F:18-262`), the
dispatch in the eighteen modules, and the phases driven by `main` (`mmf_c/src/mmf.c:149-152, 198-200`)
and `BATCH_run` (`mmf_c/src/batch_run.c:84-150`).

What the module routines do is a parameter: `act r w` runs routine `r` in world `w` and yields its
return value and the new world.  Printing is not modelled.  The hooks `single_run_pre_init` etc. are
taken to report no error.
-/
namespace Verif.CallModules
open Verif.Control (controlString)

/-- The `Arg` values used by the drivers.  `mmf.c:149`, `batch_run.c:94, 123, 141`. -/
inductive Phase
  | declare | initialize | run | cleanup
deriving DecidableEq, Repr

/-- One module: its name and its routine for each phase; `none`: the dispatch has no branch for this
phase and the module returns 0.  Lines: see `modules`.  `call_modules_webmod.F:140-249`. -/
structure Module where
  name : String
  decl : String
  init : String
  run : Option String
  clean : Option String
deriving DecidableEq, Repr

/-- The modules in the order of the calls in `call_modules_webmod.F:140-249` (the same order at 115-134),
with their dispatch: `io.F:68-77`, `soltab_prms.F:55-63`, `basin_topg.F:43-49`, `obs_chem.F:189-199`,
`obs_webmod.F:61-72`, `temp_1sta_prms.F:77-88`, `precip_web.F:70-81`, `irrig_web.F:655-666`,
`ccsolrad_web.F:64-75`, `potet_hamon_prms.F:60-71`, `intcp_prms.F:61-72`, `nwsmelt_topg.F:106-117`,
`topmod_chem.F:326-340`, `top2clark.F:287-298`, `route_clark.F:117-125`, `webmod_res.F:429-440`,
`phreeq_mms.F90:726-739`, `web_sum.F:179-190`. -/
def modules : List Module :=
  [⟨"io", "iodecl", "ioinit", some "iorun", some "ioclean"⟩,
   ⟨"soltab_prms", "stdecl", "stinit", none, none⟩,
   ⟨"basin_topg", "basdecl", "basinit", none, none⟩,
   ⟨"obs_chem", "obsc_decl", "obsc_init", some "obsc_run", some "obsc_clean"⟩,
   ⟨"obs_webmod", "obsdecl", "obsinit", some "obsrun", none⟩,
   ⟨"temp_1sta_prms", "t1decl", "t1init", some "t1run", none⟩,
   ⟨"precip_web", "pptdecl", "pptinit", some "pptrun", none⟩,
   ⟨"irrig_web", "irrdecl", "irrinit", some "irrrun", none⟩,
   ⟨"ccsolrad_web", "csoldecl", "csolinit", some "csolrun", none⟩,
   ⟨"potet_hamon_prms", "petdecl", "petinit", some "petrun", none⟩,
   ⟨"intcp_prms", "intdecl", "intinit", some "intrun", none⟩,
   ⟨"nwsmelt_topg", "nwsmdecl", "nwsminit", some "nwsmrun", some "nwsmclean"⟩,
   ⟨"topmod_chem", "topmdecl", "topminit", some "topmrun", none⟩,
   ⟨"top2clark", "top2cdecl", "top2cinit", some "top2crun", none⟩,
   ⟨"route_clark", "routecdecl", "routecinit", some "routecrun", none⟩,
   ⟨"webmod_res", "webrdecl", "webrinit", some "webrrun", none⟩,
   ⟨"phreeq_mms", "phreeqmms_decl", "phreeqmms_init", some "phreeqmms_run", some "phreeqmms_clean"⟩,
   ⟨"web_sum", "sumbdecl", "sumbinit", some "sumbrun", none⟩]

/-- The routine a module runs in a phase (the dispatch listed at `modules`).  Lines: see `modules`.
`call_modules_webmod.F:140-249`. -/
def routine (m : Module) : Phase → Option String
  | .declare => some m.decl
  | .initialize => some m.init
  | .run => m.run
  | .cleanup => m.clean

/-- A call of one module: its routine, or 0.  For example `io.F:68-77`. -/
def callModule {W} (act : String → W → Int × W) (ph : Phase) (m : Module) (w : W) : Int × W :=
  match routine m ph with
  | some r => act r w
  | none => (0, w)

/-- What a phase did: each module called with the value it returned, the value of `call_modules`, and
the world afterwards.  `call_modules_webmod.F:140-249`. -/
structure Result (W : Type) where
  calls : List (String × Int)
  ret : Int
  world : W
  deriving Repr

/-- `call_modules_webmod.F:140-249`: call each module, return at the first nonzero value, 0 at the end. -/
def callSeq {W} (act : String → W → Int × W) (ph : Phase) : List Module → W → Result W
  | [], w => ⟨[], 0, w⟩
  | m :: ms, w =>
    let (r, w') := callModule act ph m w
    if r ≠ 0 then ⟨[(m.name, r)], r, w'⟩
    else
      let o := callSeq act ph ms w'
      { o with calls := (m.name, r) :: o.calls }

/-- `call_modules_webmod.F:115-137`: with `_name`, every module is called and the values are ignored. -/
def callAll {W} (act : String → W → Int × W) (ph : Phase) : List Module → W → Result W
  | [], w => ⟨[], 0, w⟩
  | m :: ms, w =>
    let (r, w') := callModule act ph m w
    let o := callAll act ph ms w'
    { o with calls := (m.name, r) :: o.calls }

/-- `call_modules_webmod.F:71-86`: the mode number; −1 is "not implemented".  `s` is the nine character
variable `Model_mode`. -/
def modeOf (s : List Char) : Int :=
  if s.take 5 = "DAILY".toList ∨ s = List.replicate 9 ' ' then 1
  else if s.take 5 = "STORM".toList then 2
  else if s.take 5 = "TRENT".toList then 3
  else if s.take 4 = "CFGI".toList then 4
  else if s.take 5 = "_name".toList then 99
  else -1

/-- The control values consulted while declaring: `none` is a missing control variable, for which
the program exits (`mmf_c/src/control_var.c:51-55`). -/
structure Controls where
  modelMode : Option (List Char)
  precipModule : Option (List Char)
  deriving DecidableEq, Repr

/-- The result of a phase together with the value of the module variable `Model`.
`call_modules_webmod.F:5-15`. -/
structure Answer (W : Type) where
  model : Option Int
  res : Result W
  deriving Repr

/-- `call_modules_webmod.F:110-249`: the part after the mode is known. -/
def dispatch {W} (act : String → W → Int × W) (ph : Phase) (model : Int) (w : W) : Answer W :=
  if model = 99 then
    if ph ≠ .declare then ⟨some model, [], 1, w⟩
    else ⟨some model, callAll act ph modules w⟩
  else ⟨some model, callSeq act ph modules w⟩

/-- `call_modules`, `call_modules_webmod.F:19-262`.  `model` is the module variable `Model`, `none` if
never set.  `declmodule_` returns 0 (`mmf_c/src/decldim.c:252-263`) and so does `control_string_`
(`mmf_c/src/control_var.c:111-121`), so for a mode that is not implemented the function value is the 0
left by `declmodule`.  The reset of the `precip_module`, `temp_module` texts (88-107) has no further
effect.  The outer `none`: the program exits, or `Model` has no value. -/
def callModules {W} (act : String → W → Int × W) (c : Controls) (ph : Phase) (model : Option Int) (w : W) :
    Option (Answer W) :=
  match ph with
  | .declare =>
    match c.modelMode with
    | none => none
    | some s =>
      let m := modeOf (controlString 9 s)
      if m = -1 then some ⟨some m, [], 0, w⟩
      else
        match c.precipModule with
        | none => none
        | some _ => some (dispatch act ph m w)
  | _ =>
    match model with
    | none => none
    | some m => some (dispatch act ph m w)

/-- A program run: the phases called, each with the module calls and value of `call_modules`.
`mmf.c:149`, `batch_run.c:94, 123, 141`. -/
abbrev History := List (Phase × List (String × Int) × Int)

/-- `BATCH_run`'s main loop and clean-up, `batch_run.c:111-144`, when `n` more records are read. -/
def loop {W} (act : String → W → Int × W) (c : Controls) (model : Option Int) :
    Nat → W → Option History
  | 0, w =>
    match callModules act c .cleanup model w with
    | none => none
    | some a => some [(.cleanup, a.res.calls, a.res.ret)]
  | n + 1, w =>
    match callModules act c .run model w with
    | none => none
    | some a =>
      if a.res.ret ≠ 0 then some [(.run, a.res.calls, a.res.ret)]
      else (loop act c a.model n a.res.world).map ((.run, a.res.calls, a.res.ret) :: ·)

/-- `main`, `mmf.c:149-152` (a failing declare phase is only reported), then `BATCH_run`,
`batch_run.c:84-150`, for an input of `n` records.  Reading parameters and data in between is not
modelled. -/
def program {W} (act : String → W → Int × W) (c : Controls) (n : Nat) (w : W) : Option History :=
  match callModules act c .declare none w with
  | none => none
  | some a =>
    match callModules act c .initialize a.model a.res.world with
    | none => none
    | some b =>
      if b.res.ret ≠ 0 then
        some [(.declare, a.res.calls, a.res.ret), (.initialize, b.res.calls, b.res.ret)]
      else
        (loop act c b.model n b.res.world).map
          ((.declare, a.res.calls, a.res.ret) :: (.initialize, b.res.calls, b.res.ret) :: ·)

end Verif.CallModules
