import Verif.Spec.Summary
import Verif.Spec.Reservoir
/-
Specification for C110: the depths that the summary takes over from the volumes of the basin.
-/
namespace Verif.Summary

/-- The step `u` brings the storages of the basin `st`, as depths. -/
def Holds (b : Reservoir.Basin) (st : Reservoir.St) (u : Step) : Prop :=
  u.store .sto = Reservoir.depth b st.basin ∧ u.store .chanSto = Reservoir.depth b st.stream.sum

/-- The step `u` brings the depths of water reported by the basin: what enters and leaves it, and its storages. -/
structure Shows (u : Step) (r : Reservoir.Report) : Prop where
  inp : u.flux .inp = r.inp
  out : u.flux .out = r.out
  et : u.flux .et = r.et
  ppt : u.flux .ppt = r.ppt
  irrExt : u.flux .irrExt = r.irrExt
  irrHyd : u.flux .irrHyd = r.irrHyd
  gw1 : u.flux .gw1 = r.gw1
  gw2 : u.flux .gw2 = r.gw2
  gwLoss : u.flux .gwLoss = r.gwLoss
  stflow : u.flux .stflow = r.stflow
  chanLoss : u.flux .chanLoss = r.chanLoss
  chanDiv : u.flux .chanDiv = r.chanDiv
  qsim : u.flux .qsim = r.qsim
  sto : u.store .sto = r.sto
  chanSto : u.store .chanSto = r.chanSto

/-- The report of a step of the basin, from the inputs of its units and its results. -/
def reportOf (b : Reservoir.Basin) (ps : List Reservoir.Par) (x : (List Reservoir.In × Reservoir.StreamIn) × Reservoir.St × Reservoir.Out) :
    Reservoir.Report :=
  Reservoir.report b (List.zip ps (List.zip x.1.1 x.2.2.units)) x.2.2.basin

/-- Every step of the run brings the report of the basin. -/
def ShowsAll (b : Reservoir.Basin) (ps : List Reservoir.Par) (us : List Step) (ins : List (List Reservoir.In × Reservoir.StreamIn))
    (rs : List (Reservoir.St × Reservoir.Out)) : Prop :=
  List.Forall₂ (fun u x => Shows u (reportOf b ps x)) us (List.zip ins rs)

/-- Inputs fit for the units in every step. -/
def Fit (b : Reservoir.Basin) (ps : List Reservoir.Par) (st : Reservoir.St) (ins : List (List Reservoir.In × Reservoir.StreamIn)) : Prop :=
  (∀ x ∈ ins, x.1.length = ps.length) ∧
    Reservoir.Always b ps (fun p s i => s.uz.length = p.ac.length ∧ i.Ok p ∧ i.Pack p s) st ins

end Verif.Summary
