import Verif.Spec.Transport
import Mathlib.Tactic.Linarith
import Mathlib.Tactic.Ring
import Mathlib.Tactic.FieldSimp
import Mathlib.Tactic.Positivity
import Mathlib.Tactic.SplitIfs
/-
Lemmas about mixing solutions that hold a kilogram of water.
-/
namespace Verif.Transport
open Verif.Reservoir (Vol Rows BinOut sumOf)

theorem sumOf_nil {α : Type} (g : α → Rat) : sumOf g [] = 0 := rfl
theorem sumOf_cons {α : Type} (g : α → Rat) (a : α) (l : List α) : sumOf g (a :: l) = g a + sumOf g l := by simp [sumOf]

theorem fracLoop_pos (l : List (Int × Rat)) (h : ∀ c ∈ l, 0 ≤ c.2) (st : Rat × Bool × Bool) :
    (SolnNum.fracLoop id st l).2 = l.map (·.2) := by
  induction l generalizing st with
  | nil => rfl
  | cons a l ih =>
    have ha : ¬ a.2 < 0 := not_lt.2 (h a List.mem_cons_self)
    simp only [SolnNum.fracLoop, List.map_cons]
    rw [ih (fun c hc => h c (List.mem_cons_of_mem _ hc))]
    simp [SolnNum.fracStep, ha]

theorem checked_pos (l : Parts) (h : ∀ c ∈ l, 0 ≤ c.2) : checked l = l := by
  unfold checked SolnNum.checkfracs
  simp only
  rw [fracLoop_pos]
  · rw [List.map_map]
    clear h
    induction l with
    | nil => rfl
    | cons a l ih => simp only [List.map_cons, List.zip_cons_cons, ih]; rfl
  · intro c hc
    obtain ⟨d, hd, rfl⟩ := List.mem_map.1 hc
    exact h d hd

theorem blend_pos (sol : Key → Sol) (hF : Full sol) (l : Parts) (h : ∀ c ∈ l, 0 ≤ c.2) (h1 : sumOf (·.2) l = 1) :
    blend sol l = ⟨1, sumOf (fun c => c.2 * (sol c.1).mol) l⟩ := by
  have hw : ∀ c ∈ l, (if c.2 < 0 then c.2 * factor sol l else c.2) = c.2 := fun c hc => if_neg (not_lt.2 (h c hc))
  unfold blend
  simp only [Sol.mk.injEq]
  constructor
  · rw [← h1]
    unfold sumOf
    congr 1
    apply List.map_congr_left
    intro c hc
    rw [hw c hc, hF.water, mul_one]
  · unfold sumOf
    congr 1
    apply List.map_congr_left
    intro c hc
    rw [hw c hc]

theorem blend_evap (sol : Key → Sol) (hF : Full sol) (k : Key) (a b : Rat) (ha : 0 < a) (hb : 0 ≤ b) (h1 : a - b = 1) :
    blend sol [(k, a), (.pure, -b)] = ⟨1, a * (sol k).mol⟩ := by
  have ha' : ¬ a < 0 := not_lt.2 ha.le
  rcases hb.eq_or_lt with rfl | hb
  · rw [blend_pos sol hF _ _ _]
    · simp [sumOf_cons, sumOf_nil]
    · intro c hc
      simp only [List.mem_cons, List.not_mem_nil, or_false] at hc
      rcases hc with rfl | rfl
      · exact ha.le
      · simp
    · simp only [sumOf_cons, sumOf_nil]; linarith
  · have hf : factor sol [(k, a), (.pure, -b)] = 1 := by
      unfold factor
      rw [if_pos (by simp [hb])]
      have e1 : ([(k, a), (.pure, -b)] : Parts).filter (fun c => decide (0 ≤ c.2)) = [(k, a)] := by
        simp [ha.le, hb]
      have e2 : ([(k, a), (.pure, -b)] : Parts).filter (fun c => decide (c.2 < 0)) = [(.pure, -b)] := by
        simp [ha.le, hb]
      simp only [e1, e2]
      simp only [List.getLast?_singleton, Option.map_some, Option.getD_some, hF.water, sumOf_cons, sumOf_nil]
      norm_num
      rw [div_self ha.ne', abs_one]
    unfold blend
    rw [hf]
    have e : ∀ c : Key × Rat, (if c.2 < 0 then c.2 * 1 else c.2) = c.2 := by intro c; split <;> ring
    simp only [e, sumOf_cons, sumOf_nil, hF.water, hF.pure, Sol.mk.injEq]
    constructor <;> linarith

/-! ### States with full solutions -/

theorem conc_full {sol : Key → Sol} (h : Full sol) (k : Key) : (sol k).conc = (sol k).mol := by
  unfold Sol.conc; rw [h.water, div_one]

theorem at_full {s : St} (h : Full s.sol) (k : Key) : at_ s k = (s.sol k).mol := conc_full h k

theorem eta_full {sol : Key → Sol} (h : Full sol) (k : Key) : sol k = ⟨1, (sol k).mol⟩ := by
  have := h.water k
  cases hh : sol k with
  | mk w m => rw [hh] at this; simp only at this; rw [this]

theorem react_water {rx : Ent → Sol → Sol} (hd : Dry rx) (e : Ent) (s : Sol) : (react rx e s).water = s.water := by
  unfold react; split
  · rfl
  · exact hd e s

theorem react_mol {rx : Ent → Sol → Sol} (hd : Dry rx) (e : Ent) (he : e ≠ .no) (m : Rat) :
    react rx e ⟨1, m⟩ = ⟨1, reacted rx e m⟩ := by
  have h := hd e ⟨1, m⟩
  unfold react reacted Sol.conc
  rw [if_neg he, h, div_one]
  cases hh : rx e ⟨1, m⟩ with
  | mk w x => rw [hh] at h; simp only at h; rw [h]

theorem react_no (rx : Ent → Sol → Sol) (s : Sol) : react rx .no s = s := if_pos rfl

theorem Full.upd {sol : Key → Sol} (h : Full sol) (k : Key) (hk : k ≠ .pure) (x : Sol) (hx : x.water = 1) :
    Full (upd sol k x) := by
  constructor
  · intro k'
    unfold Transport.upd
    split
    · exact hx
    · exact h.water k'
  · unfold Transport.upd
    rw [if_neg (Ne.symm hk)]
    exact h.pure

/-- What a mix does to full solutions, if the parts are positive. -/
structure Did (rx : Ent → Sol → Sol) (cons dest : Key) (e : Ent) (m : Rat) (s s' : St) : Prop where
  sol : s'.sol = Transport.upd (Transport.upd s.sol cons ⟨1, m⟩) dest (react rx e ⟨1, m⟩)
  full : Full s'.sol
  conc : s'.conc = m
  tal : s'.tal = (react rx e ⟨1, m⟩).conc
  pulse : s'.pulse = s.pulse
  log : s'.log = s.log

theorem mix_did {rx : Ent → Sol → Sol} (hd : Dry rx) (l : Parts) (cons dest : Key) (hc : cons ≠ .pure) (hk : dest ≠ .pure)
    (e : Ent) (s : St) (hF : Full s.sol) (m : Rat) (hb : blend s.sol l = ⟨1, m⟩) :
    Did rx cons dest e m s (mix rx l cons dest e s) := by
  unfold mix
  rw [hb]
  refine ⟨rfl, (hF.upd cons hc _ rfl).upd dest hk _ (react_water hd _ _), ?_, rfl, rfl, rfl⟩
  simp [Sol.conc]

theorem mix_pos {rx : Ent → Sol → Sol} (hd : Dry rx) (l : Parts) (cons dest : Key) (hc : cons ≠ .pure) (hk : dest ≠ .pure)
    (e : Ent) (s : St) (hF : Full s.sol) (h : ∀ c ∈ l, 0 ≤ c.2) (h1 : sumOf (·.2) l = 1) :
    Did rx cons dest e (sumOf (fun c => c.2 * (s.sol c.1).mol) l) s (mix rx (checked l) cons dest e s) := by
  rw [checked_pos l h]
  exact mix_did hd l cons dest hc hk e s hF _ (blend_pos s.sol hF l h h1)

/-- A solution mixed alone. -/
theorem mix_one {rx : Ent → Sol → Sol} (hd : Dry rx) (k cons dest : Key) (hc : cons ≠ .pure) (hk : dest ≠ .pure)
    (e : Ent) (s : St) (hF : Full s.sol) :
    Did rx cons dest e (s.sol k).mol s (mix rx [(k, 1)] cons dest e s) := by
  apply mix_did hd _ cons dest hc hk e s hF
  rw [blend_pos s.sol hF]
  · simp [sumOf_cons, sumOf_nil]
  · intro c hc'
    simp only [List.mem_cons, List.not_mem_nil, or_false] at hc'
    subst hc'
    norm_num
  · simp [sumOf_cons, sumOf_nil]

/-- A solution mixed into itself. -/
theorem mix_self {rx : Ent → Sol → Sol} (hd : Dry rx) (k : Key) (hk : k ≠ .pure) (s : St) (hF : Full s.sol) :
    (mix rx [(k, 1)] k k .no s).sol = s.sol ∧ (mix rx [(k, 1)] k k .no s).conc = (s.sol k).mol ∧
      (mix rx [(k, 1)] k k .no s).pulse = s.pulse ∧ (mix rx [(k, 1)] k k .no s).log = s.log := by
  have h := mix_one hd k k k hk hk .no s hF
  refine ⟨?_, h.conc, h.pulse, h.log⟩
  rw [h.sol, react_no]
  funext k'
  unfold upd
  split
  · next e => rw [e]; exact (eta_full hF k).symm
  · rfl

/-- Evaporation. -/
theorem evaporate_did {rx : Ent → Sol → Sol} (hd : Dry rx) (src dest : Key) (hs : src ≠ .pure) (hk : dest ≠ .pure) (e : Ent)
    (v : Vol) (s : St) (hF : Full s.sol) (h0 : 0 < v.init + v.inp) (h1 : 0 ≤ v.et) (h2 : 0 < v.init + v.inp - v.et) :
    Did rx src dest e ((v.init + v.inp) / (v.init + v.inp - v.et) * (s.sol src).mol) s (evaporate rx src dest e v s) := by
  unfold evaporate
  refine mix_did hd _ src dest hs hk e s hF _ ?_
  rw [neg_div]
  apply blend_evap s.sol hF src _ _ (div_pos h0 h2) (div_nonneg h1 h2.le)
  rw [← sub_div, div_self h2.ne']

theorem note_sol (k : Key) (metric : Int) (vol : Rat) (a b c : Bool) (s : St) : (note k metric vol a b c s).sol = s.sol := rfl
theorem book_sol (k : Key) (v : Vol) (s : St) : (book k v s).sol = s.sol := rfl
theorem note_pulse (k : Key) (metric : Int) (vol : Rat) (a b c : Bool) (s : St) : (note k metric vol a b c s).pulse = s.pulse := rfl
theorem book_pulse (k : Key) (v : Vol) (s : St) : (book k v s).pulse = s.pulse := rfl

end Verif.Transport
