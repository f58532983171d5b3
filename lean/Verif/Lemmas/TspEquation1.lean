import Verif.Spec.TspEquation
import Mathlib.Tactic.Linarith
import Mathlib.Tactic.Ring
import Mathlib.Tactic.FieldSimp
/-
Lemmas for C132: operands and operators as trees, and what the turns of EVALUATE do to them.
-/
namespace Verif.TspEq

mutual
/-- Operands with operators between them. -/
inductive Seq
  | one (a : Opd)
  | cons (a : Opd) (o : Op) (s : Seq)
/-- Numbers, brackets (`none`) and functions. -/
inductive Opd
  | num (x : Rat)
  | grp (k : Option Nat) (s : Seq)
end

def opening : Option Nat → Tok
  | none => .lp
  | some k => .fn k

def closing : Option Nat → Tok
  | none => .rp
  | some _ => .fin

mutual
def Seq.tk : Seq → List Tok
  | .one a => a.tk
  | .cons a o s => a.tk ++ .op o :: s.tk
def Opd.tk : Opd → List Tok
  | .num x => [.num x]
  | .grp k s => opening k :: (s.tk ++ [closing k])
end

/-- The value of numbers with operators between them, from left to right: `s` adds the term to what is before it, `m` multiplies the
factor with what is before it. -/
def ev (L : Lib) (s : Rat → Rat) (m : Rat → Option Rat) (b : Rat) : List (Op × Rat) → Option Rat
  | [] => (m b).map s
  | (.pow, y) :: l => (operate L .pow b y).bind fun b' => ev L s m b' l
  | (.mul, y) :: l => (m b).bind fun p => ev L s (fun z => some (p * z)) y l
  | (.div, y) :: l => (m b).bind fun p => ev L s (fun z => operate L .div p z) y l
  | (.add, y) :: l => (m b).bind fun p => ev L (fun z => s p + z) some y l
  | (.sub, y) :: l => (m b).bind fun p => ev L (fun z => s p - z) some y l

/-- The value of a group. -/
def grpVal (L : Lib) : Option Nat → Rat → Option Rat
  | none, x => some x
  | some k, x => funcEval L k x

def evFlat (L : Lib) (p : Rat × List (Op × Rat)) : Option Rat := ev L id some p.1 p.2

mutual
def Seq.flat (L : Lib) : Seq → Option (Rat × List (Op × Rat))
  | .one a => (a.v L).map fun x => (x, [])
  | .cons a o s => (a.v L).bind fun x => (s.flat L).map fun p => (x, (o, p.1) :: p.2)
def Opd.v (L : Lib) : Opd → Option Rat
  | .num x => some x
  | .grp k s => ((s.flat L).bind (evFlat L)).bind (grpVal L k)
end

def Seq.v (L : Lib) (s : Seq) : Option Rat := (s.flat L).bind (evFlat L)

mutual
theorem seq_first : ∀ s : Seq, ∃ t u, s.tk = t :: u ∧ t ≠ .rp ∧ t ≠ .fin
  | .one a => by rw [Seq.tk]; exact opd_first a
  | .cons a o s => by
    obtain ⟨t, u, h, h1⟩ := opd_first a
    exact ⟨t, u ++ .op o :: s.tk, by rw [Seq.tk, h]; rfl, h1⟩
theorem opd_first : ∀ a : Opd, ∃ t u, a.tk = t :: u ∧ t ≠ .rp ∧ t ≠ .fin
  | .num x => ⟨_, _, by rw [Opd.tk], by simp, by simp⟩
  | .grp k s => ⟨_, _, by rw [Opd.tk], by cases k <;> simp [opening], by cases k <;> simp [opening]⟩
end

theorem seq_second (s : Seq) : (∃ x, s = .one (.num x)) ∨ ∃ t1 t2 u, s.tk = t1 :: t2 :: u ∧ t2 ≠ .rp ∧ t2 ≠ .fin := by
  have grp : ∀ k s', ∃ t1 t2 u, (Opd.grp k s').tk = t1 :: t2 :: u ∧ t2 ≠ .rp ∧ t2 ≠ .fin := by
    intro k s'
    obtain ⟨t, u, h, h1⟩ := seq_first s'
    exact ⟨opening k, t, u ++ [closing k], by rw [Opd.tk, h]; rfl, h1⟩
  cases s with
  | one a =>
    cases a with
    | num x => exact Or.inl ⟨x, rfl⟩
    | grp k s' => right; rw [Seq.tk]; exact grp k s'
  | cons a o s =>
    right
    cases a with
    | num x => exact ⟨.num x, .op o, s.tk, by rw [Seq.tk, Opd.tk]; rfl, by simp, by simp⟩
    | grp k s' =>
      obtain ⟨t1, t2, u, h, h1⟩ := grp k s'
      exact ⟨t1, t2, u ++ .op o :: s.tk, by rw [Seq.tk, h]; rfl, h1⟩

mutual
/-- Brackets around one number are removed. -/
def Seq.unb : Seq → Option Seq
  | .one a => a.unb.map .one
  | .cons a o s => match a.unb with
    | some a' => some (.cons a' o s)
    | none => s.unb.map (.cons a o)
def Opd.unb : Opd → Option Opd
  | .num _ => none
  | .grp none (.one (.num x)) => some (.num x)
  | .grp k s => s.unb.map (.grp k)
end

theorem unbracket_skip {t : Tok} (h : t ≠ .lp) (r : List Tok) : unbracket (t :: r) = (unbracket r).map (t :: ·) := by
  cases t <;> first | exact absurd rfl h | rw [unbracket]; intro _ _ h; cases h

theorem unbracket_lp {t2 : Tok} (h : t2 ≠ .rp) (t1 : Tok) (u : List Tok) :
    unbracket (.lp :: t1 :: t2 :: u) = (unbracket (t1 :: t2 :: u)).map (.lp :: ·) := by
  rw [unbracket]
  intro t r _ e
  cases e
  exact h rfl

theorem map_append {α : Type*} (x : Option (List α)) (a b : List α) : (x.map (b ++ ·)).map (a ++ ·) = x.map ((a ++ b) ++ ·) := by
  cases x <;> simp

mutual
theorem seq_unb : ∀ (s : Seq) (R : List Tok), unbracket (s.tk ++ R) =
    match s.unb with
    | some s' => some (s'.tk ++ R)
    | none => (unbracket R).map (s.tk ++ ·)
  | .one a, R => by
    rw [Seq.tk, opd_unb a R, Seq.unb]
    cases a.unb <;> simp [Seq.tk]
  | .cons a o s, R => by
    rw [Seq.tk, List.append_assoc, opd_unb a, Seq.unb]
    cases a.unb with
    | some a' => simp [Seq.tk]
    | none =>
      simp only
      rw [List.cons_append, unbracket_skip (by simp), seq_unb s R]
      cases s.unb with
      | some s' => simp [Seq.tk]
      | none => cases unbracket R <;> simp
theorem opd_unb : ∀ (a : Opd) (R : List Tok), unbracket (a.tk ++ R) =
    match a.unb with
    | some a' => some (a'.tk ++ R)
    | none => (unbracket R).map (a.tk ++ ·)
  | .num x, R => by
    rw [Opd.tk, Opd.unb, List.singleton_append, unbracket_skip (by simp)]
    rfl
  | .grp (some k) s, R => by
    rw [Opd.tk, Opd.unb, List.cons_append, unbracket_skip (by simp [opening]), List.append_assoc, seq_unb s]
    · cases s.unb with
      | some s' => simp [Opd.tk]
      | none =>
        simp only [List.singleton_append]
        rw [unbracket_skip (by simp [closing])]
        cases unbracket R <;> simp
    · intro x h; cases h
  | .grp none s, R => by
    rcases seq_second s with ⟨x, rfl⟩ | ⟨t1, t2, u, e, h1, h2⟩
    · simp [Opd.tk, Seq.tk, Opd.unb, opening, closing, unbracket]
    · have hne : ∀ x, s ≠ .one (.num x) := by
        rintro x rfl
        simp [Seq.tk, Opd.tk] at e
      rw [Opd.tk, Opd.unb, List.cons_append, List.append_assoc]
      · have e1 : opening none :: (s.tk ++ ([closing none] ++ R)) = .lp :: t1 :: t2 :: (u ++ ([closing none] ++ R)) := by rw [e]; rfl
        rw [e1, unbracket_lp h1]
        have e2 : t1 :: t2 :: (u ++ ([closing none] ++ R)) = s.tk ++ ([closing none] ++ R) := by rw [e]; rfl
        rw [e2, seq_unb s]
        cases s.unb with
        | some s' => simp [Opd.tk, opening]
        | none =>
          simp only [List.singleton_append]
          rw [unbracket_skip (by simp [closing])]
          cases unbracket R <;> simp [opening]
      · intro x h1 h2; exact hne x h2
end

mutual
theorem seq_unb_val (L : Lib) : ∀ (s s' : Seq), s.unb = some s' → s'.flat L = s.flat L
  | .one a, s', h => by
    rw [Seq.unb] at h
    cases ha : a.unb with
    | none => rw [ha] at h; cases h
    | some a' => rw [ha] at h; cases h; rw [Seq.flat, Seq.flat, opd_unb_val L a a' ha]
  | .cons a o s, s', h => by
    rw [Seq.unb] at h
    cases ha : a.unb with
    | some a' => rw [ha] at h; cases h; rw [Seq.flat, Seq.flat, opd_unb_val L a a' ha]
    | none =>
      rw [ha] at h
      simp only at h
      cases hs : s.unb with
      | none => rw [hs] at h; cases h
      | some s1 => rw [hs] at h; cases h; rw [Seq.flat, Seq.flat, seq_unb_val L s s1 hs]
theorem opd_unb_val (L : Lib) : ∀ (a a' : Opd), a.unb = some a' → a'.v L = a.v L
  | .num x, a', h => by rw [Opd.unb] at h; cases h
  | .grp (some k) s, a', h => by
    rw [Opd.unb] at h
    · cases hs : s.unb with
      | none => rw [hs] at h; cases h
      | some s1 => rw [hs] at h; cases h; rw [Opd.v, Opd.v, seq_unb_val L s s1 hs]
    · intro x h; cases h
  | .grp none s, a', h => by
    rcases seq_second s with ⟨x, rfl⟩ | ⟨t1, t2, u, e, h1, h2⟩
    · rw [Opd.unb] at h
      cases h
      simp [Opd.v, Seq.flat, evFlat, ev, grpVal]
    · have hne : ∀ x, s ≠ .one (.num x) := by
        rintro x rfl
        simp [Seq.tk, Opd.tk] at e
      rw [Opd.unb] at h
      · cases hs : s.unb with
        | none => rw [hs] at h; cases h
        | some s1 => rw [hs] at h; cases h; rw [Opd.v, Opd.v, seq_unb_val L s s1 hs]
      · intro x h1 h2; exact hne x h2
end

mutual
/-- A function of one number is evaluated. -/
def Seq.cal (L : Lib) : Seq → Option (Option Seq)
  | .one a => (a.cal L).map (·.map .one)
  | .cons a o s => match a.cal L with
    | some r => some (r.map fun a' => .cons a' o s)
    | none => (s.cal L).map (·.map (.cons a o))
def Opd.cal (L : Lib) : Opd → Option (Option Opd)
  | .num _ => none
  | .grp (some k) (.one (.num x)) => some ((funcEval L k x).map .num)
  | .grp k s => (s.cal L).map (·.map (.grp k))
end

theorem call_skip (L : Lib) {t : Tok} (h : ∀ k, t ≠ .fn k) (r : List Tok) : call L (t :: r) = (call L r).map (·.map (t :: ·)) := by
  cases t <;> first | exact absurd rfl (h _) | rw [call]; intro _ _ _ h; cases h

theorem call_fn (L : Lib) {t2 : Tok} (h : t2 ≠ .fin) (k : Nat) (t1 : Tok) (u : List Tok) :
    call L (.fn k :: t1 :: t2 :: u) = (call L (t1 :: t2 :: u)).map (·.map (.fn k :: ·)) := by
  rw [call]
  intro k t r _ e
  cases e
  exact h rfl

mutual
theorem seq_cal (L : Lib) : ∀ (s : Seq) (R : List Tok), call L (s.tk ++ R) =
    match s.cal L with
    | some r => some (r.map fun s' => s'.tk ++ R)
    | none => (call L R).map (·.map (s.tk ++ ·))
  | .one a, R => by
    rw [Seq.tk, opd_cal L a R, Seq.cal]
    rcases a.cal L with _ | _ | a' <;> simp [Seq.tk]
  | .cons a o s, R => by
    rw [Seq.tk, List.append_assoc, opd_cal L a, Seq.cal]
    rcases a.cal L with _ | _ | a'
    · simp only
      rw [List.cons_append, call_skip L (by simp), seq_cal L s R]
      rcases s.cal L with _ | _ | s'
      · rcases call L R with _ | _ | r <;> simp
      · simp
      · simp [Seq.tk]
    · simp
    · simp [Seq.tk]
theorem opd_cal (L : Lib) : ∀ (a : Opd) (R : List Tok), call L (a.tk ++ R) =
    match a.cal L with
    | some r => some (r.map fun a' => a'.tk ++ R)
    | none => (call L R).map (·.map (a.tk ++ ·))
  | .num x, R => by
    rw [Opd.tk, Opd.cal, List.singleton_append, call_skip L (by simp)]
    rfl
  | .grp none s, R => by
    rw [Opd.tk, Opd.cal, List.cons_append, call_skip L (by simp [opening]), List.append_assoc, seq_cal L s]
    · rcases s.cal L with _ | _ | s'
      · simp only [List.singleton_append]
        rw [call_skip L (by simp [closing])]
        rcases call L R with _ | _ | r <;> simp
      · simp
      · simp [Opd.tk]
    · intro k x h; cases h
  | .grp (some k) s, R => by
    rcases seq_second s with ⟨x, rfl⟩ | ⟨t1, t2, u, e, h1, h2⟩
    · simp only [Opd.tk, Seq.tk, Opd.cal, opening, closing, List.cons_append, List.nil_append, call]
      cases funcEval L k x <;> simp [Opd.tk]
    · have hne : ∀ x, s ≠ .one (.num x) := by
        rintro x rfl
        simp [Seq.tk, Opd.tk] at e
      rw [Opd.tk, Opd.cal, List.cons_append, List.append_assoc]
      · have e1 : opening (some k) :: (s.tk ++ ([closing (some k)] ++ R)) = .fn k :: t1 :: t2 :: (u ++ ([closing (some k)] ++ R)) := by
          rw [e]; rfl
        rw [e1, call_fn L h2]
        have e2 : t1 :: t2 :: (u ++ ([closing (some k)] ++ R)) = s.tk ++ ([closing (some k)] ++ R) := by rw [e]; rfl
        rw [e2, seq_cal L s]
        rcases s.cal L with _ | _ | s'
        · simp only [List.singleton_append]
          rw [call_skip L (by simp [closing])]
          rcases call L R with _ | _ | r <;> simp [opening]
        · simp
        · simp [Opd.tk, opening]
      · intro k' x h1 h2; exact hne x h2
end

mutual
theorem seq_cal_val (L : Lib) : ∀ (s : Seq) (r : Option Seq), s.cal L = some r → r.bind (Seq.flat L) = s.flat L
  | .one a, r, h => by
    rw [Seq.cal] at h
    cases ha : a.cal L with
    | none => rw [ha] at h; cases h
    | some r' =>
      rw [ha] at h; cases h
      rw [Seq.flat, ← opd_cal_val L a r' ha]
      cases r' <;> simp [Seq.flat]
  | .cons a o s, r, h => by
    rw [Seq.cal] at h
    cases ha : a.cal L with
    | some r' =>
      rw [ha] at h; cases h
      rw [Seq.flat, ← opd_cal_val L a r' ha]
      cases r' <;> simp [Seq.flat]
    | none =>
      rw [ha] at h
      simp only at h
      cases hs : s.cal L with
      | none => rw [hs] at h; cases h
      | some r' =>
        rw [hs] at h; cases h
        rw [Seq.flat, ← seq_cal_val L s r' hs]
        cases r' <;> simp [Seq.flat]
theorem opd_cal_val (L : Lib) : ∀ (a : Opd) (r : Option Opd), a.cal L = some r → r.bind (Opd.v L) = a.v L
  | .num x, r, h => by rw [Opd.cal] at h; cases h
  | .grp none s, r, h => by
    rw [Opd.cal] at h
    · cases hs : s.cal L with
      | none => rw [hs] at h; cases h
      | some r' =>
        rw [hs] at h; cases h
        rw [Opd.v, ← seq_cal_val L s r' hs]
        cases r' <;> simp [Opd.v]
    · intro k x h; cases h
  | .grp (some k) s, r, h => by
    rcases seq_second s with ⟨x, rfl⟩ | ⟨t1, t2, u, e, h1, h2⟩
    · rw [Opd.cal] at h
      cases h
      simp only [Opd.v, Seq.flat, evFlat, ev, grpVal, Option.map_some, Option.bind_some, id]
      cases funcEval L k x <;> simp [Opd.v]
    · have hne : ∀ x, s ≠ .one (.num x) := by
        rintro x rfl
        simp [Seq.tk, Opd.tk] at e
      rw [Opd.cal] at h
      · cases hs : s.cal L with
        | none => rw [hs] at h; cases h
        | some r' =>
          rw [hs] at h; cases h
          rw [Opd.v, ← seq_cal_val L s r' hs]
          cases r' <;> simp [Opd.v]
      · intro k' x h1 h2; exact hne x h2
end

mutual
/-- There is no group of one number. -/
def Seq.tight : Seq → Prop
  | .one a => a.tight
  | .cons a _ s => a.tight ∧ s.tight
def Opd.tight : Opd → Prop
  | .num _ => True
  | .grp _ s => (∀ x, s ≠ .one (.num x)) ∧ s.tight
end

mutual
theorem seq_tight (L : Lib) : ∀ s : Seq, s.unb = none → s.cal L = none → s.tight
  | .one a, h1, h2 => by
    rw [Seq.unb, Option.map_eq_none_iff] at h1
    rw [Seq.cal, Option.map_eq_none_iff] at h2
    rw [Seq.tight]
    exact opd_tight L a h1 h2
  | .cons a o s, h1, h2 => by
    rw [Seq.unb] at h1
    rw [Seq.cal] at h2
    cases ha : a.unb with
    | some a' => rw [ha] at h1; cases h1
    | none =>
      rw [ha] at h1
      cases hc : a.cal L with
      | some r => rw [hc] at h2; cases h2
      | none =>
        rw [hc] at h2
        simp only [Option.map_eq_none_iff] at h1 h2
        rw [Seq.tight]
        exact ⟨opd_tight L a ha hc, seq_tight L s h1 h2⟩
theorem opd_tight (L : Lib) : ∀ a : Opd, a.unb = none → a.cal L = none → a.tight
  | .num x, _, _ => by rw [Opd.tight]; trivial
  | .grp k s, h1, h2 => by
    rw [Opd.tight]
    have hne : ∀ x, s ≠ .one (.num x) := by
      rintro x rfl
      cases k with
      | none => rw [Opd.unb] at h1; cases h1
      | some k => rw [Opd.cal] at h2; cases h2
    refine ⟨hne, ?_⟩
    rw [Opd.unb, Option.map_eq_none_iff] at h1
    · rw [Opd.cal, Option.map_eq_none_iff] at h2
      · exact seq_tight L s h1 h2
      · intro k' x _ h; exact hne x h
    · intro x _ h; exact hne x h
end

end Verif.TspEq
