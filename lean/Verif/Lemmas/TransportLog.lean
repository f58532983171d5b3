import Verif.Spec.TransportLog
import Verif.Lemmas.TransportUnit5
/-
What the sections of a unit record.
-/
namespace Verif.Transport
open Verif.Reservoir (Vol Rows BinOut Par In sumOf fall inch2m)

/-- All that is recorded for a row. -/
structure Rec where
  inp : Rat
  out : Rat
  ended : List (Rat × Rat)
  vols : List (Rat × Rat × Rat)

/-- Sums of records. -/
def Rec.add (a b : Rec) : Rec := ⟨a.inp + b.inp, a.out + b.out, a.ended ++ b.ended, a.vols ++ b.vols⟩

def Rec.none : Rec := ⟨0, 0, [], []⟩

def Ev.one (k : Key) (e : Ev) : Rec := ⟨e.into k, e.from k, e.reaction k, e.volumes k⟩

def recs (k : Key) (l : List Ev) : Rec := ⟨recIn k l, recOut k l, recEnd k l, recVol k l⟩

theorem recs_nil (k : Key) : recs k [] = .none := rfl

theorem recs_cons (k : Key) (e : Ev) (l : List Ev) : recs k (e :: l) = (e.one k).add (recs k l) := by
  simp [recs, recIn, recOut, recEnd, recVol, Rec.add, Ev.one]

theorem recs_append (k : Key) (l l' : List Ev) : recs k (l ++ l') = (recs k l).add (recs k l') := by
  simp [recs, recIn, recOut, recEnd, recVol, Rec.add]

theorem Rec.add_none (a : Rec) : a.add .none = a := by simp [Rec.add, Rec.none]
theorem Rec.none_add (a : Rec) : Rec.none.add a = a := by simp [Rec.add, Rec.none]

/-- Groundwater records. -/
def gws (u : Nat) (l : List Ev) : Rat × Rat := (recEnter u l, recLeave u l)

theorem gws_append (u : Nat) (l l' : List Ev) :
    gws u (l ++ l') = ((gws u l).1 + (gws u l').1, (gws u l).2 + (gws u l').2) := by
  simp [gws, recEnter, recLeave]

/-- A section records `l`, and nothing for other rows. -/
structure Wrote (ks : List Key) (s s' : St) (l : List Ev) : Prop where
  log : s'.log = s.log ++ l
  other : ∀ k, k ∉ ks → recs k l = .none
  gw : ∀ u, gws u l = (0, 0)

theorem Wrote.refl {ks : List Key} {s : St} : Wrote ks s s [] := ⟨by simp, fun _ _ => rfl, fun _ => rfl⟩

theorem Wrote.next {ks ks' K : List Key} {s s1 s2 : St} {l l' : List Ev} (h : Wrote ks s s1 l) (h' : Wrote ks' s1 s2 l')
    (h1 : ∀ k ∈ ks, k ∈ K) (h2 : ∀ k ∈ ks', k ∈ K) : Wrote K s s2 (l ++ l') := by
  refine ⟨by rw [h'.log, h.log, List.append_assoc], fun k hk => ?_, fun u => ?_⟩
  · rw [recs_append, h.other k fun hh => hk (h1 k hh), h'.other k fun hh => hk (h2 k hh), Rec.add_none]
  · rw [gws_append, h.gw, h'.gw]; simp

theorem Wrote.of_log {ks : List Key} {s s1 s' : St} {l : List Ev} (h : Wrote ks s s1 l) (e : s'.log = s1.log) : Wrote ks s s' l :=
  ⟨e.trans h.log, h.other, h.gw⟩

theorem wrote_note (s : St) (k : Key) (metric : Int) (vol : Rat) (a b c : Bool) :
    Wrote [k.row] s (note k metric vol a b c s) [.call k.row metric vol s.conc s.tal a b c] := by
  refine ⟨rfl, fun k' hk => ?_, fun u => ?_⟩
  · simp only [List.mem_cons, List.not_mem_nil, or_false] at hk
    cases c <;> simp [recs_cons, recs_nil, Ev.one, Ev.into, Ev.from, Ev.reaction, Ev.volumes, hk, Rec.none, Rec.add]
  · simp [gws, recEnter, recLeave, Ev.enters, Ev.leaves]

theorem wrote_book (s : St) (k : Key) (v : Vol) : Wrote [k.row] s (book k v s) [.set k.row v.init v.et v.fin] := by
  refine ⟨rfl, fun k' hk => ?_, fun u => ?_⟩
  · simp only [List.mem_cons, List.not_mem_nil, or_false] at hk
    simp [recs_cons, recs_nil, Ev.one, Ev.into, Ev.from, Ev.reaction, Ev.volumes, hk, Rec.none, Rec.add]
  · simp [gws, recEnter, recLeave, Ev.enters, Ev.leaves]

theorem rec_in (k : Key) (vol c t : Rat) (a b : Bool) : recs k [.call k 2 vol c t a b false] = ⟨vol * c, 0, [], []⟩ := by
  simp [recs_cons, recs_nil, Ev.one, Ev.into, Ev.from, Ev.reaction, Ev.volumes, Rec.none, Rec.add]

theorem rec_in0 (k : Key) (vol c t : Rat) (a b : Bool) : recs k [.call k 0 vol c t a b false] = ⟨vol * c, 0, [], []⟩ := by
  simp [recs_cons, recs_nil, Ev.one, Ev.into, Ev.from, Ev.reaction, Ev.volumes, Rec.none, Rec.add]

theorem rec_out (k : Key) (vol c t : Rat) (a b : Bool) : recs k [.call k 3 vol c t a b false] = ⟨0, vol * c, [], []⟩ := by
  simp [recs_cons, recs_nil, Ev.one, Ev.into, Ev.from, Ev.reaction, Ev.volumes, Rec.none, Rec.add]

theorem rec_last (k : Key) (vol c t : Rat) (a b : Bool) : recs k [.call k 3 vol c t a b true] = ⟨0, vol * c, [(c, t)], []⟩ := by
  simp [recs_cons, recs_nil, Ev.one, Ev.into, Ev.from, Ev.reaction, Ev.volumes, Rec.none, Rec.add]

theorem rec_still (k : Key) (vol c t : Rat) (a b : Bool) : recs k [.call k (-1) vol c t a b true] = ⟨0, 0, [(c, t)], []⟩ := by
  simp [recs_cons, recs_nil, Ev.one, Ev.into, Ev.from, Ev.reaction, Ev.volumes, Rec.none, Rec.add]

theorem rec_set (k : Key) (x y z : Rat) : recs k [.set k x y z] = ⟨0, 0, [], [(x, y, z)]⟩ := by
  simp [recs_cons, recs_nil, Ev.one, Ev.into, Ev.from, Ev.reaction, Ev.volumes, Rec.none, Rec.add]

end Verif.Transport
