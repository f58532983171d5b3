import Verif.Lemmas.EndPer
/-
C20: the end-of-period code decodes to the flags that were set; the flags are the right ones.
-/
namespace Verif.EndPer
open Verif.Calendar

/-- C20: whatever the state, time, step length and rounding, the integer published by a step is decoded
by every consumer to exactly the flags that were set. -/
theorem C20_decode (rd : Rat → Rat) (endjday timestep : Rat) (now : Now) (st st' : State) (o : Out)
    (h : iorun rd endjday timestep now st = some (st', o)) : decode o.endper = o.flags := by
  unfold iorun at h
  split at h
  · dsimp only at h
    split at h
    · rename_i hs
      cases h
      exact decode_compose hs
    · cases h
  · cases h

/-- C20: a number made from flags decodes to these flags, for all flags of which a longer period also
ends the shorter ones; a storm may end at any time. -/
theorem C20_encode (f : Flags) (h1 : f.run = true → f.yr = true) (h2 : f.yr = true → f.mo = true)
    (h3 : f.mo = true → f.dy = true) :
    decode (compose ⟨f.run.toNat, f.yr.toNat, f.mo.toNat, f.dy.toNat, f.storm.toNat⟩) = f := by
  obtain ⟨a, b, c, d, e⟩ := f
  revert h1 h2 h3
  cases a <;> cases b <;> cases c <;> cases d <;> cases e <;> decide

example : decode (compose ⟨0, 0, 1, 1, 1⟩) = ⟨false, false, true, true, true⟩ := by decide

/-- C20: in a run that visits every day with steps of `s` seconds, `s` a divisor of the day, and with
no record falling into the last fifth of a step before midnight, every step carries the right flags,
and the decoded flags are these. -/
theorem C20_run_partial (rd : Rat → Rat) (hrd : Double rd) (yrdays0 : Int) (fin : Now) (hf : fin.Ok)
    (s : Int) (hs : 1 ≤ s) (hdiv : s ∣ 86400) (recs : List (Now × Rat)) (hd : Daily recs)
    (hok : ∀ r ∈ recs, r.1.Ok ∧ Step r.2 s ∧ 5 * (r.1.secs % s) ≤ 4 * s) :
    ∃ outs, runIo rd yrdays0 fin recs = some outs ∧
      List.Forall₂ (fun r o => Right fin (LastOfDay s r.1) r.1 o.flags ∧ decode o.endper = o.flags)
        recs outs := by
  obtain ⟨outs, h1, h2⟩ := runIo_right hrd yrdays0 hf recs (fun r hr => (hok r hr).1) hd
  refine ⟨outs, h1, forall2_imp h2 ?_⟩
  rintro r hr o ⟨t, ht, hR, hD⟩
  obtain ⟨a, b, c⟩ := hok r hr
  exact ⟨hR.congr (endOfDay_iff hrd a ht hs hdiv b c), hD⟩

/-- C20: whatever the step lengths, in a run that visits every day the month and year flags are
consistent with the day flag and the calendar. -/
theorem C20_calendar (rd : Rat → Rat) (hrd : Double rd) (yrdays0 : Int) (fin : Now) (hf : fin.Ok)
    (recs : List (Now × Rat)) (hd : Daily recs) (hok : ∀ r ∈ recs, r.1.Ok) :
    ∃ outs, runIo rd yrdays0 fin recs = some outs ∧
      List.Forall₂ (fun r o => Right fin (o.flags.dy = true) r.1 (decode o.endper)) recs outs := by
  obtain ⟨outs, h1, h2⟩ := runIo_right hrd yrdays0 hf recs hok hd
  refine ⟨outs, h1, forall2_imp h2 ?_⟩
  rintro r hr o ⟨t, ht, hR, hD⟩
  rw [hD]
  obtain ⟨a, b, c, d, e⟩ := hR
  refine ⟨a, b, ?_, ?_, ?_⟩
  · exact ⟨Or.inr, fun h => h.elim (fun h => c.2 (Or.inl h)) id⟩
  · rw [d, c]
    exact ⟨fun h => h.imp id (fun h => ⟨Or.inr h.1, h.2⟩),
      fun h => h.elim Or.inl fun h => h.1.imp id fun x => ⟨x, h.2⟩⟩
  · rw [e, c]
    exact ⟨fun h => h.imp id (fun h => ⟨Or.inr h.1, h.2⟩),
      fun h => h.elim Or.inl fun h => h.1.imp id fun x => ⟨x, h.2⟩⟩

/-- Rounding to a multiple of 2⁻³⁰: satisfies `Double` and is not the identity. -/
def rd30 (x : Rat) : Rat := ((x * 1073741824).floor : Int) / 1073741824

theorem rd30_double : Double rd30 := by
  constructor
  · intro n _ _
    unfold rd30
    have : ((n : Rat) * 1073741824) = ((n * 1073741824 : Int) : Rat) := by push_cast; rfl
    rw [this, Rat.floor_intCast]
    push_cast
    linarith
  · intro x _ _
    unfold rd30
    have h1 := Rat.floor_le (x * 1073741824)
    have h2 : x * 1073741824 < ((x * 1073741824).floor : Int) + 1 := by
      have := Rat.floor_lt_iff (a := x * 1073741824) (x := (x * 1073741824).floor + 1)
      have := this.1 (by omega)
      push_cast at this
      exact this
    constructor <;> linarith

/-- Three-hourly records of the last days of a water year. -/
def exampleRecs : List (Now × Rat) :=
  [(⟨⟨2003, 9, 29⟩, 21, 0, 0⟩, 3), (⟨⟨2003, 9, 30⟩, 0, 0, 0⟩, 3), (⟨⟨2003, 9, 30⟩, 21, 0, 0⟩, 3),
   (⟨⟨2003, 10, 1⟩, 0, 0, 0⟩, 3)]

example : Daily exampleRecs ∧
    (∀ r ∈ exampleRecs, r.1.Ok ∧ Step r.2 10800 ∧ 5 * (r.1.secs % 10800) ≤ 4 * 10800) := by
  refine ⟨by unfold exampleRecs Daily Daily Daily Daily; decide, ?_⟩
  intro r hr
  have hs : Step 3 10800 := by unfold Step; norm_num
  simp only [exampleRecs, List.mem_cons, List.not_mem_nil, or_false] at hr
  rcases hr with rfl | rfl | rfl | rfl <;>
    exact ⟨⟨by decide, by decide, by decide, by decide, by decide⟩, hs, by decide⟩

example : (runIo rd30 0 ⟨⟨2004, 9, 30⟩, 0, 0, 0⟩ exampleRecs).map (·.map Out.endper) =
    some [2, 0, 14, 0] := by decide +kernel

/-- C20 fails for other times of day: with hourly records at five minutes to the hour, two records of
the same day are flagged as the last one. -/
theorem C20_day_violated :
    (runIo rd30 0 ⟨⟨2004, 9, 30⟩, 0, 0, 0⟩
      [(⟨⟨2003, 6, 30⟩, 21, 55, 0⟩, 1), (⟨⟨2003, 6, 30⟩, 22, 55, 0⟩, 1),
       (⟨⟨2003, 6, 30⟩, 23, 55, 0⟩, 1)]).map (·.map Out.flags) =
      some [⟨false, false, false, false, false⟩, ⟨false, false, true, true, false⟩,
        ⟨false, false, true, true, false⟩] := by decide +kernel

/-- C20 fails when the records skip 1 January: the leap year is not noticed, the end of the water year
is announced on 29 September 2004 and not on the 30th, and the end of February a day early. -/
theorem C20_gap_violated :
    (runIo rd30 0 ⟨⟨2005, 9, 30⟩, 0, 0, 0⟩
      [(⟨⟨2003, 12, 31⟩, 0, 0, 0⟩, 24), (⟨⟨2004, 1, 2⟩, 0, 0, 0⟩, 48), (⟨⟨2004, 2, 28⟩, 0, 0, 0⟩, 24),
       (⟨⟨2004, 2, 29⟩, 0, 0, 0⟩, 24), (⟨⟨2004, 9, 29⟩, 0, 0, 0⟩, 24),
       (⟨⟨2004, 9, 30⟩, 0, 0, 0⟩, 24)]).map (·.map Out.endper) =
      some [6, 2, 6, 2, 14, 6] := by decide +kernel

end Verif.EndPer
