import Verif.Spec.TspUfore
import Verif.Lemmas.TspStatvar
import Verif.Lemmas.TspStat
import Verif.Lemmas.TspDate
import Mathlib.Tactic.Ring
/-
Lemmas for C146.
-/
namespace Verif.TspUfore
open Verif.Tsp Verif.TspStv

theorem split_time (t : Int) : (split t).time = t := by
  simp only [split, Clock.time]; omega

theorem split_proper (t : Int) : (split t).Proper := by
  simp only [split, Clock.Proper]; omega

theorem eq_split {c : Clock} (h : c.Proper) : c = split c.time := by
  obtain ⟨a, b⟩ := c
  simp only [Clock.Proper] at h
  simp only [split, Clock.time, Clock.mk.injEq]
  omega

theorem steps_length (d : Int) : ∀ (vs : List Rat) (t : Int), (steps d t vs).length = vs.length
  | [], _ => rfl
  | v :: vs, t => by simp [steps, steps_length d vs (t + d)]

theorem steps_bound {d : Int} (hd : 0 < d) : ∀ (vs : List Rat) (t : Int), ∀ x ∈ steps d t vs,
    t < x.at_.time ∧ x.at_.time ≤ t + vs.length * d
  | [], _, x, h => by simp [steps] at h
  | v :: vs, t, x, h => by
    have hn : 0 ≤ (vs.length : Int) * d := Int.mul_nonneg (by omega) hd.le
    have hl : ((v :: vs).length : Int) * d = vs.length * d + d := by push_cast [List.length_cons]; ring
    rw [hl]
    simp only [steps, List.mem_cons] at h
    rcases h with h | h
    · subst h; simp only [split_time]; omega
    · have := steps_bound hd vs (t + d) x h; omega

theorem storeAll_eq (cap : Nat) {d : Int} (hd : 0 < d) : ∀ (vs : List Rat) (rest : List (Option Rat)) (c : Clock) (acc : List Term),
    c.Proper → acc.length + vs.length = cap →
    storeAll cap d vs.length (vs.map some ++ rest) c acc = .ok cap (acc ++ steps d c.time vs)
  | [], rest, c, acc, _, _ => by simp [storeAll, steps]
  | v :: vs, rest, c, acc, hc, hl => by
    have hcar : carry c.days (c.secs + d) = split (c.time + d) := by
      rw [carry_eq _ _ (by have := hc.1; omega)]; simp only [split, Clock.time]; rw [add_assoc]
    simp only [List.length_cons] at hl
    simp only [List.length_cons, List.map_cons, List.cons_append, storeAll]
    rw [if_pos (by omega), hcar, storeAll_eq cap hd vs rest _ _ (split_proper _) (by simp; omega), split_time]
    simp [steps]

theorem settle_split {c : Clock} {d : Int} (hc : c.Proper) (hd : 0 < d) (hd2 : d ≤ 86400) :
    settle ⟨c.days, c.secs + d⟩ = split (c.time + d) := by
  have hp : (settle ⟨c.days, c.secs + d⟩).Proper := settle_proper (by have := hc.1; have := hc.2; simp only; omega)
  rw [eq_split hp, settle_time]
  simp only [Clock.time, add_assoc]

/-- The terms between two times. -/
def between (t1 t2 : Int) (s : List Term) : List Term := s.filter fun x => decide (t1 ≤ x.at_.time) && decide (x.at_.time ≤ t2)

theorem between_beyond {d t1 t2 t : Int} (hd : 0 < d) (vs : List Rat) (h : t2 ≤ t) : between t1 t2 (steps d t vs) = [] := by
  unfold between
  rw [List.filter_eq_nil_iff]
  intro x hx
  have := (steps_bound hd vs t x hx).1
  simp only [Bool.and_eq_true, decide_eq_true_eq]
  omega

theorem between_cons {d t1 t2 t : Int} (v : Rat) (vs : List Rat) : between t1 t2 (steps d t (v :: vs)) =
    if t1 ≤ t + d ∧ t + d ≤ t2 then ⟨split (t + d), v⟩ :: between t1 t2 (steps d (t + d) vs) else between t1 t2 (steps d (t + d) vs) := by
  unfold between
  simp only [steps, List.filter_cons, split_time, Bool.and_eq_true, decide_eq_true_eq]

theorem countTimes_eq {lim d : Int} (t1 t2 : Int) (hd : 0 < d) : ∀ (vs : List Rat) (t : Int) (k : Nat), 0 ≤ t → t + vs.length * d ≤ lim →
    countTimes lim t1 t2 d vs.length t k = some (k + (between t1 t2 (steps d t vs)).length)
  | [], t, k, _, _ => by simp [countTimes, steps, between]
  | v :: vs, t, k, h0, hl => by
    have hn : 0 ≤ (vs.length : Int) * d := Int.mul_nonneg (by omega) hd.le
    have e : ((v :: vs).length : Int) * d = vs.length * d + d := by push_cast [List.length_cons]; ring
    rw [e] at hl
    simp only [List.length_cons, countTimes]
    rw [show chk lim (t + d) = some (t + d) from if_pos (by omega)]
    simp only
    rw [between_cons]
    by_cases h1 : t1 ≤ t + d
    · by_cases h2 : t + d ≤ t2
      · rw [if_pos h1, if_pos h2, if_pos ⟨h1, h2⟩, countTimes_eq t1 t2 hd vs _ _ (by omega) (by omega)]
        simp only [List.length_cons]
        congr 1; omega
      · rw [if_pos h1, if_neg h2, if_neg (by omega), between_beyond hd vs (by omega)]
        rfl
    · rw [if_neg h1, if_neg (by omega), countTimes_eq t1 t2 hd vs _ _ (by omega) (by omega)]

theorem storeSome_eq (cap : Nat) {d : Int} (hd : 0 < d) (hd2 : d ≤ 86400) {b e : Clock} (hb : b.Proper) (he : e.Proper) :
    ∀ (vs : List Rat) (rest : List (Option Rat)) (c : Clock) (acc : List Term), c.Proper →
    acc.length + (between b.time e.time (steps d c.time vs)).length ≤ cap →
    storeSome cap d b e vs.length (vs.map some ++ rest) c acc = .ok cap (acc ++ between b.time e.time (steps d c.time vs))
  | [], rest, c, acc, _, _ => by simp [storeSome, steps, between]
  | v :: vs, rest, c, acc, hc, hl => by
    have l1 := Tsp.later_false hb (split_proper (c.time + d))
    have l2 := Tsp.later_false (split_proper (c.time + d)) he
    rw [split_time] at l1 l2
    rw [between_cons] at hl ⊢
    simp only [List.length_cons, List.map_cons, List.cons_append, storeSome]
    rw [settle_split hc hd hd2]
    have ht := split_time (c.time + d)
    by_cases h1 : b.time ≤ c.time + d
    · by_cases h2 : c.time + d ≤ e.time
      · rw [if_pos ⟨h1, h2⟩] at hl
        simp only [List.length_cons] at hl
        rw [if_pos (l1.2 h1), if_pos (l2.2 h2), if_pos (by omega), if_pos ⟨h1, h2⟩,
          storeSome_eq cap hd hd2 hb he vs rest _ _ (split_proper _) (by rw [ht]; simp only [List.length_append, List.length_singleton]; omega), ht]
        simp
      · rw [if_pos (l1.2 h1), if_neg (fun h => h2 (l2.1 h)), if_neg (fun h => h2 h.2), between_beyond hd vs (by omega)]
        simp
    · rw [if_neg (fun h => h1 h.1)] at hl
      rw [if_neg (fun h => h1 (l1.1 h)), if_neg (fun h => h1 h.1), storeSome_eq cap hd hd2 hb he vs rest _ _ (split_proper _) (by rw [ht]; exact hl), ht]

theorem total_eq {lim : Int} {c : Clock} (hc : c.Proper) (h0 : 0 ≤ c.time) (hl : c.time ≤ lim) : total lim c = some c.time := by
  have h1 := hc.1
  have h2 := hc.2
  simp only [Clock.time] at h0 hl
  unfold total
  rw [show chk lim (c.days * 86400) = some (c.days * 86400) from if_pos (by omega)]
  simp only
  rw [show chk lim (c.days * 86400 + c.secs) = some (c.days * 86400 + c.secs) from if_pos (by omega)]
  rfl

theorem jd_large {d : Day} (hy : 1 ≤ d.year) (hm : 1 ≤ d.month ∧ d.month ≤ 12) (hk : 1 ≤ d.day) : 24856 ≤ jd d := by
  obtain ⟨y, m, k⟩ := d
  simp only at hy hm hk
  unfold jd
  simp only
  split_ifs <;> omega

end Verif.TspUfore
