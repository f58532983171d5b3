import Verif.Lemmas.TspUfore
/-
Lemmas for C146: files that end too early, with a period.
-/
namespace Verif.TspUfore
open Verif.Tsp Verif.TspStv

theorem steps_append (d : Int) : ∀ (vs ws : List Rat) (t : Int), ∃ t', steps d t (vs ++ ws) = steps d t vs ++ steps d t' ws
  | [], ws, t => ⟨t, by simp [steps]⟩
  | v :: vs, ws, t => by
    obtain ⟨t', h⟩ := steps_append d vs ws (t + d)
    exact ⟨t', by simp [steps, h]⟩

theorem between_append_le (d t1 t2 t : Int) (vs ws : List Rat) :
    (between t1 t2 (steps d t vs)).length ≤ (between t1 t2 (steps d t (vs ++ ws))).length := by
  obtain ⟨t', h⟩ := steps_append d vs ws t
  rw [h]
  unfold between
  rw [List.filter_append, List.length_append]
  omega

theorem storeSome_short (cap : Nat) {d : Int} (hd : 0 < d) (hd2 : d ≤ 86400) {b e : Clock} (hb : b.Proper) (he : e.Proper)
    {rest : List (Option Rat)} (hrest : rest.head? = none ∨ rest.head? = some none) :
    ∀ (vs : List Rat) (n : Nat) (c : Clock) (acc : List Term), vs.length < n → c.Proper → c.time + vs.length * d ≤ e.time →
    acc.length + (between b.time e.time (steps d c.time vs)).length ≤ cap →
    storeSome cap d b e n (vs.map some ++ rest) c acc = .error
  | [], n, c, acc, hn, _, _, _ => by
    obtain ⟨k, rfl⟩ : ∃ m, n = m + 1 := ⟨n - 1, by simp at hn; omega⟩
    rcases rest with _ | ⟨x, rest⟩
    · rfl
    · rcases x with _ | x
      · rfl
      · simp at hrest
  | v :: vs, n, c, acc, hn, hc, hE, hl => by
    obtain ⟨k, rfl⟩ : ∃ m, n = m + 1 := ⟨n - 1, by simp at hn; omega⟩
    have hn0 : 0 ≤ (vs.length : Int) * d := Int.mul_nonneg (by omega) hd.le
    have e' : ((v :: vs).length : Int) * d = vs.length * d + d := by push_cast [List.length_cons]; ring
    rw [e'] at hE
    have hk : vs.length < k := by simpa using hn
    have l1 := Tsp.later_false hb (split_proper (c.time + d))
    have l2 := Tsp.later_false (split_proper (c.time + d)) he
    rw [split_time] at l1 l2
    rw [between_cons] at hl
    simp only [List.map_cons, List.cons_append, storeSome]
    rw [settle_split hc hd hd2]
    have ht := split_time (c.time + d)
    have h2 : c.time + d ≤ e.time := by omega
    by_cases h1 : b.time ≤ c.time + d
    · rw [if_pos ⟨h1, h2⟩] at hl
      simp only [List.length_cons] at hl
      rw [if_pos (l1.2 h1), if_pos (l2.2 h2), if_pos (by omega)]
      exact storeSome_short cap hd hd2 hb he hrest vs k _ _ hk (split_proper _) (by rw [ht]; omega)
        (by rw [ht]; simp only [List.length_append, List.length_singleton]; omega)
    · rw [if_neg (fun h => h1 h.1)] at hl
      rw [if_neg (fun h => h1 (l1.1 h))]
      exact storeSome_short cap hd hd2 hb he hrest vs k _ _ hk (split_proper _) (by rw [ht]; omega) (by rw [ht]; exact hl)

end Verif.TspUfore
