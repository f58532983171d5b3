import Verif.Model.Summary
/-
Specification for C109 to C112: periods of a run, totals, means and extremes over steps, labels and columns.
-/
namespace Verif.Summary
open Verif.EndPer

/-- A step that ends a period; the totals of storms are those of days.  The run ends with its last step only. -/
def Ends (u : Step) : Per → Prop
  | .storm => (decode u.endper).dy = true
  | .day => (decode u.endper).dy = true
  | .month => (decode u.endper).mo = true
  | .year => (decode u.endper).yr = true
  | .run => False

/-- In a run of the steps `before ++ during`, the steps `during` are those of the current period `p`: none but the last ends it,
and the step before them ended the one before. -/
structure Since (p : Per) (before during : List Step) : Prop where
  nonempty : during ≠ []
  start : ∀ u ∈ before.getLast?, Ends u p
  going : ∀ u ∈ during.dropLast, ¬ Ends u p

/-- Sum over steps. -/
def total (f : Step → Rat) (us : List Step) : Rat := (us.map f).sum

/-- Mean over steps. -/
def average (f : Step → Rat) (us : List Step) : Rat := total f us / us.length

/-- `x` is the largest value of `f`. -/
def Greatest (f : Step → Rat) (us : List Step) (x : Rat) : Prop := (∃ u ∈ us, f u = x) ∧ ∀ u ∈ us, f u ≤ x

/-- `x` is the smallest value of `f`. -/
def Least (f : Step → Rat) (us : List Step) (x : Rat) : Prop := (∃ u ∈ us, f u = x) ∧ ∀ u ∈ us, x ≤ f u

/-- A value of the chemistry of a step, zero without chemistry. -/
def ofChem (f : ChemStep → Rat) (u : Step) : Rat :=
  match u.chem with
  | none => 0
  | some c => f c

/-- Steps are counted from 1. -/
def Numbered (us : List Step) : Prop := ∀ (k : Nat) u, us[k]? = some u → u.nstep = k + 1

/-- The water that a step leaves unexplained, from the storages after the step before and after it. -/
def gap (v u : Step) : Rat :=
  u.flux .ppt + u.flux .irrExt + u.flux .gw1 + u.flux .gw2 - u.flux .et - u.flux .gwLoss - u.flux .chanLoss - u.flux .stflow -
    ((u.store .sto - u.store .chanSto) - (v.store .sto - v.store .chanSto))

/-- The gaps of steps that follow `v`; that of the first step of a run counts as zero. -/
def gaps : Option Step → List Step → List Rat
  | _, [] => []
  | none, u :: us => 0 :: gaps (some u) us
  | some v, u :: us => gap v u :: gaps (some u) us

/-- What the detailed table says under its labels about the steps `us`, the last of which is `u`. -/
def detailOf (us : List Step) (u : Step) (tmax tmin err : Rat) : List (String × Cell) :=
  let t (f : Flux) : Cell := .num (total (·.flux f) us)
  let s (x : Store) : Cell := .num (u.store x)
  [("srad", .int (trunc (average (·.watt) us))), ("tmax", .int (trunc tmax)), ("tmin", .int (trunc tmin)),
   ("Pot_ET", t .potet), ("Act_ET", t .et), ("Basin_sto", s .sto), ("Basin_in", t .inp), ("Basin_out", t .out),
   ("Delta_sto", .num (total (·.flux .inp) us - total (·.flux .out) us - total (·.flux .et) us)), ("Precip", t .ppt),
   ("Irr_ext", t .irrExt), ("Irr_sat", t .irrSat), ("Irr_hyd", t .irrHyd), ("Intcp_sto", s .intcpSto), ("Intcp", t .intcp),
   ("Int_evap", t .intcpEvap), ("Transp", t .transp), ("Thrufall", t .thruf), ("Net_dep", t .netDep), ("Net_rain", t .netRain),
   ("Net_snow", t .netSnow), ("SWE", s .pweqv), ("Snowmelt", t .snowmelt), ("Snowevap", t .snowEvap), ("Surf_dep", t .surfdep),
   ("OF_Hort", t .ofHort), ("OF_Dunn", t .ofDunn), ("OF_tot", t .sroff), ("Infil", t .infil), ("SoilMoist", s .soilMoist),
   ("UZ_sto", s .sssto), ("Qdir_flow", t .qdf), ("Soil_evap", t .uzEt), ("GW_sto", s .gwSto), ("GW_in1", t .gw1),
   ("GW_in2", t .gw2), ("Qwet", t .qwet), ("Qvpref", t .vpref), ("UZ2Sat", t .uz2sat), ("Recharge", t .recharge),
   ("Sat2UZ", t .sat2uz), ("Qwell", t .qwell), ("Qsatpref", t .qpref), ("GW_loss", t .gwLoss), ("Baseflow", t .gwFlow),
   ("Q_Hill", t .stflow), ("Chan_sto", s .chanSto), ("Diversion", t .chanDiv), ("Chan_loss", t .chanLoss), ("Q_sim", t .qsim),
   ("Q_obs", t .qobs), ("Q_sim", .num (average (·.qsim) us)), ("Q_obs", .num (average (·.qobs) us)), ("Wat_bal", .num err)]

/-- What the table of the water balance says under its labels. -/
def tableOf (us : List Step) (u : Step) (err : Rat) : List (String × Cell) :=
  let t (f : Flux) : Cell := .num (total (·.flux f) us)
  [("Basin_sto", .num (u.store .sto)), ("Precip", t .ppt), ("Irr_ext", t .irrExt), ("GW_in", t .gw1), ("Act_ET", t .et),
   ("GW_loss", t .gwLoss), ("Chan_loss", t .chanLoss), ("Q_sim", t .qsim), ("Q_obs", t .qobs), ("Wat_bal", .num err)]

/-- Is a row of a step (`none`) or of a period due in `hydro.out` at the end of step `u`? -/
def Due (c : Cfg) (u : Step) : Kind → Prop
  | none => c.sw.u = true
  | some .storm => False
  | some .day => c.sw.d = true ∧ Ends u .day ∧ u.timestep < 24
  | some .month => c.sw.m = true ∧ Ends u .month
  | some .year => c.sw.y = true ∧ Ends u .year
  | some .run => c.sw.t = true ∧ (decode u.endper).run = true

/-- The same in `chem.out`, which has no rows of days. -/
def ChemDue (c : Cfg) (u : Step) (k : Kind) : Prop := c.chem = true ∧ u.chem.isSome = true ∧ k ≠ some .day ∧ Due c u k

/-- The kind of a line that is a row. -/
def Line.kind? : Line → Option Kind
  | .row k _ => some k
  | _ => none

/-- The kinds of the rows among lines. -/
def rowsOf (l : List Line) : List Kind := l.filterMap Line.kind?

/-- Is the heading repeated after a step?  After days when steps and days are printed, after months when months are printed below
steps or days, after years when years are printed below one of these. -/
def HeadingDue (c : Cfg) (u : Step) : Prop :=
  (decode u.endper).run = false ∧
    if c.sw.u = true ∧ c.sw.d = true ∧ c.dtinit < 24 then Ends u .day
    else if (c.sw.u = true ∨ c.sw.d = true) ∧ c.sw.m = true then Ends u .month
    else (c.sw.y = true ∧ (c.sw.u = true ∨ c.sw.d = true ∨ c.sw.m = true)) ∧ Ends u .year

/-- A mean weighted by volumes; without volume there is none. -/
def weighted (f w : ChemStep → Rat) (us : List Step) : Cell :=
  if total (ofChem w) us = 0 then .undef
  else .num (total (ofChem fun c => f c * w c) us / total (ofChem w) us)

/-- What `chem.out` says about the outlet over the steps `us`. -/
def outletOf (iso : List Bool) (us : List Step) : List Cell :=
  let q (p : Quality) : Cell := weighted (·.prop p) (·.water .outlet) us
  [.num (total (ofChem (·.water .outlet)) us), q .outletTemp, q .outletPh] ++
    iso.zipIdx.map fun s => if s.1 then q (.outletPermil s.2) else .num (total (ofChem (·.mass (.outlet s.2))) us)

/-- What `chem.out` says about the basin over the steps `us`, in the last of which the chemistry gives `c`. -/
def basinOf (iso : List Bool) (us : List Step) (c : ChemStep) : List Cell :=
  let vol (w : Water) : Rat := total (ofChem (·.water w)) us
  let inp (p : Quality) : Cell := if vol .inp = 0 then .na else weighted (·.prop p) (·.water .inp) us
  let out (p : Quality) : Cell := weighted (·.prop p) (·.water .out) us
  let sum (m : Mass) : Cell := .num (total (ofChem (·.mass m)) us)
  [inp .inTemp, out .outTemp, inp .inPh, out .outPh, .num (vol .inp), .num (vol .out), .num (vol .et), .num c.volFinal] ++
    iso.zipIdx.flatMap fun s =>
      if s.1 then [inp (.inPermil s.2), out (.outPermil s.2), weighted (·.prop (.etPermil s.2)) (·.water .et) us,
        .num (c.permilFinal s.2)]
      else [sum (.inp s.2), sum (.out s.2), sum (.rxn s.2), .num (c.massFinal s.2)]

/-- The words of a line with their first column and the column after their last. -/
def wordsFrom : Nat → List Char → List (Nat × Nat × List Char)
  | _, [] => []
  | pos, ' ' :: r => wordsFrom (pos + 1) r
  | pos, c :: r =>
    match r, wordsFrom (pos + 1) r with
    | ' ' :: _, ws => (pos, pos + 1, [c]) :: ws
    | [], ws => (pos, pos + 1, [c]) :: ws
    | _, (_, e, w) :: ws => (pos, e, c :: w) :: ws
    | _, [] => [(pos, pos + 1, [c])]

/-- The words of a line. -/
def labels (s : List Char) : List String := (wordsFrom 0 s).map fun w => String.ofList w.2.2

/-- The columns of the words of a line. -/
def columns (s : List Char) : List (Nat × Nat) := (wordsFrom 0 s).map fun w => (w.1, w.2.1)

/-- A label stands over its column. -/
def Over (label column : Nat × Nat) : Prop := column.1 ≤ label.1 ∧ label.2 ≤ column.2

end Verif.Summary
