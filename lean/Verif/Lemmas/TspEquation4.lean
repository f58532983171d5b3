import Verif.Lemmas.TspEquation3
/-
Lemmas for C132: PARSE.
-/
namespace Verif.TspEq

mutual
/-- Operands with operators between them, as they are written. -/
inductive USeq
  | one (a : UOpd)
  | cons (a : UOpd) (o : Op) (s : USeq)
/-- Numbers, brackets, functions, and signs that are or are not functions. -/
inductive UOpd
  | num (x : Rat)
  | grp (k : Option Nat) (s : USeq)
  | sgn (d : Bool) (n : Bool) (a : UOpd)
end

def sgnOp : Bool → Op
  | true => .sub
  | false => .add

def sgnFn : Bool → Nat
  | true => 15
  | false => 16

/-- Beginning and end of brackets and functions: as written, with functions marked, with their brackets taken away. -/
def begin0 : Option Nat → List Word
  | none => [.lp]
  | some k => [.name k, .lp]
def begin1 : Option Nat → List Word
  | none => [.lp]
  | some k => [.fn k, .lp]
def begin2 : Option Nat → Word
  | none => .lp
  | some k => .fn k
def end2 : Option Nat → Word
  | none => .rp
  | some _ => .fin

mutual
def USeq.w0 (b : Option Nat → List Word) : USeq → List Word
  | .one a => a.w0 b
  | .cons a o s => a.w0 b ++ .op o :: s.w0 b
def UOpd.w0 (b : Option Nat → List Word) : UOpd → List Word
  | .num x => [.num x]
  | .grp k s => b k ++ (s.w0 b ++ [.rp])
  | .sgn _ n a => .op (sgnOp n) :: a.w0 b
end

mutual
def USeq.w2 : USeq → List Word
  | .one a => a.w2
  | .cons a o s => a.w2 ++ .op o :: s.w2
def UOpd.w2 : UOpd → List Word
  | .num x => [.num x]
  | .grp k s => begin2 k :: (s.w2 ++ [end2 k])
  | .sgn true n a => .fn (sgnFn n) :: (a.w2 ++ [.fin])
  | .sgn false n a => .op (sgnOp n) :: a.w2
end

mutual
def USeq.all (d : Bool) : USeq → USeq
  | .one a => .one (a.all d)
  | .cons a o s => .cons (a.all d) o (s.all d)
def UOpd.all (d : Bool) : UOpd → UOpd
  | .num x => .num x
  | .grp k s => .grp k (s.all d)
  | .sgn _ n a => .sgn d n (a.all d)
end

/-! ### Names -/

theorem names_skip (a : Word) {R : List Word} (h : R.head? ≠ some .lp) : names (a :: R) = (names R).map (a :: ·) := by
  rcases R with _ | ⟨b, R⟩
  · rfl
  · cases b with
    | lp => exact absurd rfl h
    | _ => rw [names]; intro r h; cases h

theorem names_op (o : Op) (R : List Word) : names (.op o :: R) = (names R).map (.op o :: ·) := by
  by_cases h : R.head? = some .lp
  · rcases R with _ | ⟨b, R⟩
    · cases h
    · simp only [List.head?_cons, Option.some.injEq] at h
      subst h
      rw [names]
  · exact names_skip _ h

theorem names_lp (R : List Word) : names (.lp :: R) = (names R).map (.lp :: ·) := by
  by_cases h : R.head? = some .lp
  · rcases R with _ | ⟨b, R⟩
    · cases h
    · simp only [List.head?_cons, Option.some.injEq] at h
      subst h
      rw [names]
  · exact names_skip _ h

mutual
theorem useq_names : ∀ (s : USeq) (R : List Word), R.head? ≠ some .lp → names (s.w0 begin0 ++ R) = (names R).map (s.w0 begin1 ++ ·)
  | .one a, R, h => by rw [USeq.w0, USeq.w0, uopd_names a R h]
  | .cons a o s, R, h => by
    rw [USeq.w0, USeq.w0, List.append_assoc, uopd_names a _ (by simp), List.cons_append, names_op, useq_names s R h]
    cases names R <;> simp
theorem uopd_names : ∀ (a : UOpd) (R : List Word), R.head? ≠ some .lp → names (a.w0 begin0 ++ R) = (names R).map (a.w0 begin1 ++ ·)
  | .num x, R, h => by rw [UOpd.w0, UOpd.w0, List.singleton_append, names_skip _ h]; rfl
  | .grp none s, R, h => by
    rw [UOpd.w0, UOpd.w0, begin0, begin1, List.singleton_append, List.cons_append, names_lp, List.append_assoc,
      useq_names s _ (by simp), List.singleton_append, names_skip _ h]
    cases names R <;> simp
  | .grp (some k) s, R, h => by
    rw [UOpd.w0, UOpd.w0, begin0, begin1]
    simp only [List.cons_append, List.nil_append]
    rw [names]
    rw [names_lp, List.append_assoc, useq_names s _ (by simp), List.singleton_append, names_skip _ h]
    cases names R <;> simp
  | .sgn d n a, R, h => by
    rw [UOpd.w0, UOpd.w0, List.cons_append, names_op, uopd_names a R h]
    cases names R <;> simp
end

mutual
theorem useq_short : ∀ s : USeq, (s.w0 begin0).length ≤ 2 → s.w0 begin0 = s.w0 begin1
  | .one a, h => by rw [USeq.w0] at h ⊢; rw [USeq.w0, uopd_short a h]
  | .cons a o s, h => by
    rw [USeq.w0] at h
    simp only [List.length_append, List.length_cons] at h
    rw [USeq.w0, USeq.w0, uopd_short a (by omega), useq_short s (by omega)]
theorem uopd_short : ∀ a : UOpd, (a.w0 begin0).length ≤ 2 → a.w0 begin0 = a.w0 begin1
  | .num x, _ => rfl
  | .grp none s, h => by
    rw [UOpd.w0] at h
    simp only [List.length_append, begin0, List.length_cons, List.length_nil] at h
    rw [UOpd.w0, UOpd.w0, useq_short s (by omega)]
    rfl
  | .grp (some k) s, h => by
    rw [UOpd.w0] at h
    simp only [List.length_append, begin0, List.length_cons, List.length_nil] at h
    omega
  | .sgn d n a, h => by
    rw [UOpd.w0] at h
    simp only [List.length_cons] at h
    rw [UOpd.w0, UOpd.w0, uopd_short a (by omega)]
end

/-! ### Brackets of functions -/

mutual
theorem useq_close : ∀ (s : USeq) (n : Nat) (R : List Word), 1 ≤ n → closeFn n (s.w0 begin1 ++ R) = s.w0 begin1 ++ closeFn n R
  | .one a, n, R, h => by rw [USeq.w0, uopd_close a n R h]
  | .cons a o s, n, R, h => by
    rw [USeq.w0, List.append_assoc, uopd_close a n _ h, List.cons_append, closeFn, useq_close s n R h]
    all_goals simp
theorem uopd_close : ∀ (a : UOpd) (n : Nat) (R : List Word), 1 ≤ n → closeFn n (a.w0 begin1 ++ R) = a.w0 begin1 ++ closeFn n R
  | .num x, n, R, h => by rw [UOpd.w0, List.singleton_append, closeFn]; all_goals simp
  | .grp k s, n, R, h => by
    have e : closeFn n (.lp :: (s.w0 begin1 ++ [.rp] ++ R)) = .lp :: (s.w0 begin1 ++ [.rp] ++ closeFn n R) := by
      rw [closeFn, List.append_assoc, useq_close s (n + 1) _ (by omega), List.singleton_append, closeFn, if_neg (by omega)]
      simp
    rw [UOpd.w0]
    cases k with
    | none => simpa [begin1] using e
    | some k =>
      simp only [begin1, List.cons_append, List.nil_append]
      rw [closeFn, e]
      all_goals simp
  | .sgn d n a, m, R, h => by
    rw [UOpd.w0, List.cons_append, closeFn, uopd_close a m R h]
    all_goals simp
end

theorem brackets_skip {a : Word} (h : ∀ k, a ≠ .fn k) (r : List Word) : brackets (a :: r) = a :: brackets r := by
  rw [brackets]
  intro k b r' h1
  exact absurd h1 (h k)

mutual
theorem useq_brackets : ∀ (s : USeq) (R : List Word), brackets (s.w0 begin1 ++ R) = (s.all false).w2 ++ brackets R
  | .one a, R => by rw [USeq.w0, uopd_brackets a, USeq.all, USeq.w2]
  | .cons a o s, R => by
    rw [USeq.w0, List.append_assoc, uopd_brackets a, List.cons_append, brackets_skip (by simp), useq_brackets s, USeq.all, USeq.w2]
    simp
theorem uopd_brackets : ∀ (a : UOpd) (R : List Word), brackets (a.w0 begin1 ++ R) = (a.all false).w2 ++ brackets R
  | .num x, R => by rw [UOpd.w0, List.singleton_append, brackets_skip (by simp), UOpd.all, UOpd.w2]; rfl
  | .grp none s, R => by
    rw [UOpd.w0, UOpd.all, UOpd.w2]
    simp only [begin1, List.cons_append, List.nil_append]
    rw [brackets_skip (by simp), List.append_assoc, useq_brackets s, List.singleton_append, brackets_skip (by simp)]
    simp [begin2, end2]
  | .grp (some k) s, R => by
    rw [UOpd.w0, UOpd.all, UOpd.w2]
    simp only [begin1, List.cons_append, List.nil_append]
    rw [brackets, List.append_assoc, useq_close s 1 _ le_rfl, List.singleton_append, closeFn, if_pos rfl, useq_brackets s,
      brackets_skip (by simp)]
    simp [begin2, end2]
  | .sgn d n a, R => by
    rw [UOpd.w0, UOpd.all, UOpd.w2, List.cons_append, brackets_skip (by simp), uopd_brackets a]
    rfl
end

/-! ### Signs -/

/-- Terms that do not change the level. -/
def plain : Word → Prop
  | .num _ => True
  | .op _ => True
  | _ => False

theorem endSign_plain {c : Int} (hc : 1 ≤ c) {a : Word} (h : plain a) (r : List Word) : endSign c (a :: r) = (endSign c r).map (a :: ·) := by
  cases a with
  | num x => simp only [endSign]; rw [if_neg (by omega), if_neg (by omega)]
  | op o =>
    cases o with
    | sub => rfl
    | add => rfl
    | _ => simp only [endSign]; rw [if_neg (by omega), if_neg (by omega)]
  | _ => exact absurd h id

theorem endSign_sgn (c : Int) (n : Bool) (r : List Word) : endSign c (.op (sgnOp n) :: r) = (endSign c r).map (.op (sgnOp n) :: ·) := by
  cases n <;> rfl

theorem endSign_begin {c : Int} (hc : 0 ≤ c) (k : Option Nat) (r : List Word) :
    endSign c (begin2 k :: r) = (endSign (c + 1) r).map (begin2 k :: ·) := by
  cases k <;> (simp only [begin2, endSign]; rw [if_neg (by omega), if_neg (by omega)])

theorem endSign_end {c : Int} (hc : 1 ≤ c) (k : Option Nat) (r : List Word) :
    endSign (c + 1) (end2 k :: r) = (endSign c r).map (end2 k :: ·) := by
  cases k <;>
  · simp only [end2, endSign]
    rw [if_neg (by omega), if_neg (by omega), show c + 1 - 1 = c by omega]

theorem endSign_last (k : Option Nat) (r : List Word) : endSign 1 (end2 k :: r) = some (end2 k :: .fin :: r) := by
  cases k <;> rfl

mutual
theorem useq_end : ∀ (s : USeq) (c : Int) (R : List Word), 1 ≤ c → endSign c (s.w2 ++ R) = (endSign c R).map (s.w2 ++ ·)
  | .one a, c, R, h => by rw [USeq.w2, uopd_end a c R h]
  | .cons a o s, c, R, h => by
    rw [USeq.w2, List.append_assoc, uopd_end a c _ h, List.cons_append, endSign_plain h (a := .op o) trivial, useq_end s c R h]
    cases endSign c R <;> simp
theorem uopd_end : ∀ (a : UOpd) (c : Int) (R : List Word), 1 ≤ c → endSign c (a.w2 ++ R) = (endSign c R).map (a.w2 ++ ·)
  | .num x, c, R, h => by rw [UOpd.w2, List.singleton_append, endSign_plain h (a := .num x) trivial]; rfl
  | .grp k s, c, R, h => by
    rw [UOpd.w2, List.cons_append, endSign_begin (by omega), List.append_assoc, useq_end s (c + 1) _ (by omega),
      List.singleton_append, endSign_end h]
    cases endSign c R <;> simp
  | .sgn true n a, c, R, h => by
    rw [UOpd.w2, List.cons_append, show Word.fn (sgnFn n) = begin2 (some (sgnFn n)) from rfl, endSign_begin (by omega), List.append_assoc,
      uopd_end a (c + 1) _ (by omega), List.singleton_append, show Word.fin = end2 (some 0) from rfl, endSign_end h]
    cases endSign c R <;> simp
  | .sgn false n a, c, R, h => by
    rw [UOpd.w2, List.cons_append, endSign_sgn, uopd_end a c R h]
    cases endSign c R <;> simp
end

theorem uopd_end0 : ∀ (a : UOpd) (R : List Word), endSign 0 (a.w2 ++ R) = some (a.w2 ++ .fin :: R)
  | .num x, R => rfl
  | .grp k s, R => by
    rw [UOpd.w2, List.cons_append, endSign_begin le_rfl, List.append_assoc, useq_end s (0 + 1) _ (by omega),
      List.singleton_append, show (0 : Int) + 1 = 1 from rfl, endSign_last]
    simp
  | .sgn true n a, R => by
    rw [UOpd.w2, List.cons_append, show Word.fn (sgnFn n) = begin2 (some (sgnFn n)) from rfl, endSign_begin le_rfl, List.append_assoc,
      uopd_end a (0 + 1) _ (by omega), List.singleton_append, show Word.fin = end2 (some 0) from rfl, show (0 : Int) + 1 = 1 from rfl,
      endSign_last]
    simp [end2]
  | .sgn false n a, R => by
    rw [UOpd.w2, List.cons_append, endSign_sgn, uopd_end0 a R]
    simp

mutual
/-- The first sign becomes a function. -/
def USeq.step : USeq → Option USeq
  | .one a => a.step.map .one
  | .cons a o s => match a.step with
    | some a' => some (.cons a' o s)
    | none => s.step.map (.cons a o)
def UOpd.step : UOpd → Option UOpd
  | .num _ => none
  | .grp k s => s.step.map (.grp k)
  | .sgn false n a => some (.sgn true n a)
  | .sgn true n a => a.step.map (.sgn true n)
end

mutual
/-- Signs that are not functions. -/
def USeq.cnt : USeq → Nat
  | .one a => a.cnt
  | .cons a _ s => a.cnt + s.cnt
def UOpd.cnt : UOpd → Nat
  | .num _ => 0
  | .grp _ s => s.cnt
  | .sgn false _ a => a.cnt + 1
  | .sgn true _ a => a.cnt
end

theorem sign_next (u : Bool) {a : Word} (h : u = false ∨ a ≠ .op .sub ∧ a ≠ .op .add) (r : List Word) :
    sign u (a :: r) = (sign (opens a) r).map (·.map (a :: ·)) := by
  rw [sign, if_neg, if_neg]
  · rintro ⟨h1, h2⟩
    rcases h with h | h
    · rw [h] at h1; cases h1
    · exact h.2 h2
  · rintro ⟨h1, h2⟩
    rcases h with h | h
    · rw [h] at h1; cases h1
    · exact h.1 h2

theorem sign_here (n : Bool) (r : List Word) : sign true (.op (sgnOp n) :: r) = some ((endSign 0 r).map (.fn (sgnFn n) :: ·)) := by
  cases n <;> simp [sign, sgnOp, sgnFn]

theorem opens_begin (k : Option Nat) : opens (begin2 k) = true := by cases k <;> rfl
theorem opens_end (k : Option Nat) : opens (end2 k) = false := by cases k <;> rfl

mutual
theorem useq_sign : ∀ (s : USeq) (R : List Word), sign true (s.w2 ++ R) =
    match s.step with
    | some s' => some (some (s'.w2 ++ R))
    | none => (sign false R).map (·.map (s.w2 ++ ·))
  | .one a, R => by
    rw [USeq.w2, uopd_sign a, USeq.step]
    cases a.step <;> simp [USeq.w2]
  | .cons a o s, R => by
    rw [USeq.w2, List.append_assoc, uopd_sign a, USeq.step]
    cases a.step with
    | some a' => simp [USeq.w2]
    | none =>
      simp only
      rw [List.cons_append, sign_next false (Or.inl rfl), show opens (.op o) = true from rfl, useq_sign s R]
      cases s.step with
      | some s' => simp [USeq.w2]
      | none => rcases sign false R with _ | _ | r <;> simp
theorem uopd_sign : ∀ (a : UOpd) (R : List Word), sign true (a.w2 ++ R) =
    match a.step with
    | some a' => some (some (a'.w2 ++ R))
    | none => (sign false R).map (·.map (a.w2 ++ ·))
  | .num x, R => by
    rw [UOpd.w2, List.singleton_append, sign_next true (Or.inr (by simp)), UOpd.step]
    rfl
  | .grp k s, R => by
    rw [UOpd.w2, List.cons_append, sign_next true (Or.inr (by cases k <;> simp [begin2])), opens_begin, List.append_assoc,
      useq_sign s, UOpd.step]
    cases s.step with
    | some s' => simp [UOpd.w2]
    | none =>
      simp only [List.singleton_append, Option.map_none]
      rw [sign_next false (Or.inl rfl), opens_end]
      rcases sign false R with _ | _ | r <;> simp
  | .sgn true n a, R => by
    rw [UOpd.w2, List.cons_append, sign_next true (Or.inr (by simp)), show opens (.fn (sgnFn n)) = true from rfl, List.append_assoc,
      uopd_sign a, UOpd.step]
    cases a.step with
    | some a' => simp [UOpd.w2]
    | none =>
      simp only [List.singleton_append, Option.map_none]
      rw [sign_next false (Or.inl rfl), show opens .fin = false from rfl]
      rcases sign false R with _ | _ | r <;> simp
  | .sgn false n a, R => by
    rw [UOpd.w2, List.cons_append, sign_here, uopd_end0, UOpd.step]
    simp [UOpd.w2]
end

mutual
theorem useq_none : ∀ s : USeq, s.step = none → s.all true = s ∧ s.cnt = 0
  | .one a, h => by
    rw [USeq.step, Option.map_eq_none_iff] at h
    obtain ⟨h1, h2⟩ := uopd_none a h
    rw [USeq.all, USeq.cnt, h1, h2]
    exact ⟨rfl, rfl⟩
  | .cons a o s, h => by
    rw [USeq.step] at h
    cases ha : a.step with
    | some a' => rw [ha] at h; cases h
    | none =>
      rw [ha] at h
      simp only [Option.map_eq_none_iff] at h
      obtain ⟨h1, h2⟩ := uopd_none a ha
      obtain ⟨h3, h4⟩ := useq_none s h
      rw [USeq.all, USeq.cnt, h1, h2, h3, h4]
      exact ⟨rfl, rfl⟩
theorem uopd_none : ∀ a : UOpd, a.step = none → a.all true = a ∧ a.cnt = 0
  | .num x, _ => ⟨by rw [UOpd.all], by rw [UOpd.cnt]⟩
  | .grp k s, h => by
    rw [UOpd.step, Option.map_eq_none_iff] at h
    obtain ⟨h1, h2⟩ := useq_none s h
    rw [UOpd.all, UOpd.cnt, h1, h2]
    exact ⟨rfl, rfl⟩
  | .sgn true n a, h => by
    rw [UOpd.step, Option.map_eq_none_iff] at h
    obtain ⟨h1, h2⟩ := uopd_none a h
    rw [UOpd.all, UOpd.cnt, h1, h2]
    exact ⟨rfl, rfl⟩
  | .sgn false n a, h => by rw [UOpd.step] at h; cases h
end

mutual
theorem useq_some : ∀ s s' : USeq, s.step = some s' → s'.all true = s.all true ∧ s'.cnt + 1 = s.cnt
  | .one a, s', h => by
    rw [USeq.step] at h
    cases ha : a.step with
    | none => rw [ha] at h; cases h
    | some a' =>
      rw [ha] at h; cases h
      obtain ⟨h1, h2⟩ := uopd_some a a' ha
      rw [USeq.all, USeq.cnt, USeq.all, USeq.cnt, h1, h2]
      exact ⟨rfl, rfl⟩
  | .cons a o s, s', h => by
    rw [USeq.step] at h
    cases ha : a.step with
    | some a' =>
      rw [ha] at h; cases h
      obtain ⟨h1, h2⟩ := uopd_some a a' ha
      rw [USeq.all, USeq.cnt, USeq.all, USeq.cnt, h1]
      exact ⟨rfl, by omega⟩
    | none =>
      rw [ha] at h
      simp only at h
      cases hs : s.step with
      | none => rw [hs] at h; cases h
      | some s1 =>
        rw [hs] at h; cases h
        obtain ⟨h1, h2⟩ := useq_some s s1 hs
        rw [USeq.all, USeq.cnt, USeq.all, USeq.cnt, h1]
        exact ⟨rfl, by omega⟩
theorem uopd_some : ∀ a a' : UOpd, a.step = some a' → a'.all true = a.all true ∧ a'.cnt + 1 = a.cnt
  | .num x, _, h => by rw [UOpd.step] at h; cases h
  | .grp k s, a', h => by
    rw [UOpd.step] at h
    cases hs : s.step with
    | none => rw [hs] at h; cases h
    | some s1 =>
      rw [hs] at h; cases h
      obtain ⟨h1, h2⟩ := useq_some s s1 hs
      rw [UOpd.all, UOpd.cnt, UOpd.all, UOpd.cnt, h1, h2]
      exact ⟨rfl, rfl⟩
  | .sgn true n a, a', h => by
    rw [UOpd.step] at h
    cases ha : a.step with
    | none => rw [ha] at h; cases h
    | some a1 =>
      rw [ha] at h; cases h
      obtain ⟨h1, h2⟩ := uopd_some a a1 ha
      rw [UOpd.all, UOpd.cnt, UOpd.all, UOpd.cnt, h1, h2]
      exact ⟨rfl, rfl⟩
  | .sgn false n a, a', h => by
    rw [UOpd.step] at h
    cases h
    rw [UOpd.all, UOpd.cnt, UOpd.all, UOpd.cnt]
    exact ⟨rfl, rfl⟩
end

mutual
theorem useq_cnt_le : ∀ s : USeq, s.cnt ≤ s.w2.length
  | .one a => by rw [USeq.cnt, USeq.w2]; exact uopd_cnt_le a
  | .cons a o s => by
    have := uopd_cnt_le a
    have := useq_cnt_le s
    rw [USeq.cnt, USeq.w2]
    simp
    omega
theorem uopd_cnt_le : ∀ a : UOpd, a.cnt ≤ a.w2.length
  | .num x => by rw [UOpd.cnt]; omega
  | .grp k s => by
    have := useq_cnt_le s
    rw [UOpd.cnt, UOpd.w2]
    simp
    omega
  | .sgn true n a => by
    have := uopd_cnt_le a
    rw [UOpd.cnt, UOpd.w2]
    simp
    omega
  | .sgn false n a => by
    have := uopd_cnt_le a
    rw [UOpd.cnt, UOpd.w2]
    simp
    omega
end

mutual
theorem useq_zero : ∀ s : USeq, s.cnt = 0 → s.all true = s
  | .one a, h => by rw [USeq.cnt] at h; rw [USeq.all, uopd_zero a h]
  | .cons a o s, h => by rw [USeq.cnt] at h; rw [USeq.all, uopd_zero a (by omega), useq_zero s (by omega)]
theorem uopd_zero : ∀ a : UOpd, a.cnt = 0 → a.all true = a
  | .num x, _ => by rw [UOpd.all]
  | .grp k s, h => by rw [UOpd.cnt] at h; rw [UOpd.all, useq_zero s h]
  | .sgn true n a, h => by rw [UOpd.cnt] at h; rw [UOpd.all, uopd_zero a h]
  | .sgn false n a, h => by rw [UOpd.cnt] at h; omega
end

theorem useq_signs : ∀ (n : Nat) (s : USeq), s.cnt ≤ n → signs n s.w2 = some (s.all true).w2
  | 0, s, h => by rw [signs, useq_zero s (by omega)]
  | n + 1, s, h => by
    have hs := useq_sign s []
    rw [List.append_nil] at hs
    cases h1 : s.step with
    | none =>
      rw [h1] at hs
      have hs' : sign true s.w2 = none := hs
      rw [signs, hs', (useq_none s h1).1]
    | some s' =>
      rw [h1] at hs
      simp only [List.append_nil] at hs
      obtain ⟨h2, h3⟩ := useq_some s s' h1
      rw [signs, hs]
      simp only
      rw [useq_signs n s' (by omega), h2]

mutual
theorem useq_last : ∀ s : USeq, ∃ u t, s.w2 = u ++ [t] ∧ t.isOp = false
  | .one a => by rw [USeq.w2]; exact uopd_last a
  | .cons a o s => by
    obtain ⟨u, t, h, h1⟩ := useq_last s
    exact ⟨a.w2 ++ .op o :: u, t, by rw [USeq.w2, h]; simp, h1⟩
theorem uopd_last : ∀ a : UOpd, ∃ u t, a.w2 = u ++ [t] ∧ t.isOp = false
  | .num x => ⟨[], _, by rw [UOpd.w2]; rfl, rfl⟩
  | .grp k s => ⟨begin2 k :: s.w2, end2 k, by rw [UOpd.w2]; rfl, by cases k <;> rfl⟩
  | .sgn true n a => ⟨.fn (sgnFn n) :: a.w2, .fin, by rw [UOpd.w2]; rfl, rfl⟩
  | .sgn false n a => by
    obtain ⟨u, t, h, h1⟩ := uopd_last a
    exact ⟨.op (sgnOp n) :: u, t, by rw [UOpd.w2, h]; rfl, h1⟩
end

mutual
theorem useq_all_all : ∀ s : USeq, (s.all false).all true = s.all true
  | .one a => by rw [USeq.all, USeq.all, USeq.all, uopd_all_all a]
  | .cons a o s => by rw [USeq.all, USeq.all, USeq.all, uopd_all_all a, useq_all_all s]
theorem uopd_all_all : ∀ a : UOpd, (a.all false).all true = a.all true
  | .num x => by rw [UOpd.all, UOpd.all]
  | .grp k s => by rw [UOpd.all, UOpd.all, UOpd.all, useq_all_all s]
  | .sgn d n a => by rw [UOpd.all, UOpd.all, UOpd.all, uopd_all_all a]
end

theorem parse_useq (s : USeq) : parse (s.w0 begin0) = some (s.all true).w2 := by
  have h1 : (if (s.w0 begin0).length ≤ 2 then some (s.w0 begin0) else names (s.w0 begin0)) = some (s.w0 begin1) := by
    split
    · rename_i h
      rw [useq_short s h]
    · have h := useq_names s [] (by simp)
      rw [List.append_nil] at h
      rw [h]
      simp [names]
  have h2 : brackets (s.w0 begin1) = (s.all false).w2 := by
    have h := useq_brackets s []
    rw [List.append_nil] at h
    rw [h]
    simp [brackets]
  obtain ⟨u, t, h3, h4⟩ := useq_last (s.all false)
  have h5 : (s.all false).w2.getLast?.elim false Word.isOp = false := by
    rw [h3, List.getLast?_append]
    simpa using h4
  unfold parse
  rw [h1]
  simp only [Option.bind_some, h2, h5]
  rw [if_neg (by simp), useq_signs _ _ (useq_cnt_le _), useq_all_all]

/-! ### The grammar -/

def USeq.app : USeq → Op → USeq → USeq
  | .one a, o, s' => .cons a o s'
  | .cons a o s, o', s' => .cons a o (s.app o' s')

theorem uapp_w0 (b : Option Nat → List Word) : ∀ (s : USeq) (o : Op) (s' : USeq), (s.app o s').w0 b = s.w0 b ++ .op o :: s'.w0 b
  | .one a, o, s' => by rw [USeq.app, USeq.w0, USeq.w0]
  | .cons a o s, o', s' => by rw [USeq.app, USeq.w0, USeq.w0, uapp_w0 b s]; simp

theorem uapp_w2 : ∀ (s : USeq) (o : Op) (s' : USeq), ((s.app o s').all true).w2 = (s.all true).w2 ++ .op o :: (s'.all true).w2
  | .one a, o, s' => by rw [USeq.app, USeq.all, USeq.all, USeq.w2, USeq.w2]
  | .cons a o s, o', s' => by rw [USeq.app, USeq.all, USeq.all, USeq.w2, USeq.w2, uapp_w2 s]; simp

mutual
def Sum.u : Sum → USeq
  | .one t => t.u
  | .plus s t => s.u.app .add t.u
  | .minus s t => s.u.app .sub t.u
def Product.u : Product → USeq
  | .one p => p.u
  | .times t p => t.u.app .mul p.u
  | .over t p => t.u.app .div p.u
def Power.u : Power → USeq
  | .one a => .one a.u
  | .raised p a => p.u.app .pow (.one a.u)
def Atom.u : Atom → UOpd
  | .num x => .num x
  | .bracket s => .grp none s.u
  | .func k s => .grp (some (k + 1)) s.u
  | .neg a => .sgn false true a.u
  | .pos a => .sgn false false a.u
end

mutual
theorem sum_w0 : ∀ s : Sum, s.u.w0 begin0 = s.words
  | .one t => by rw [Sum.u, Sum.words, product_w0 t]
  | .plus s t => by rw [Sum.u, Sum.words, uapp_w0, product_w0 t, sum_w0 s]
  | .minus s t => by rw [Sum.u, Sum.words, uapp_w0, product_w0 t, sum_w0 s]
theorem product_w0 : ∀ s : Product, s.u.w0 begin0 = s.words
  | .one t => by rw [Product.u, Product.words, power_w0 t]
  | .times s t => by rw [Product.u, Product.words, uapp_w0, power_w0 t, product_w0 s]
  | .over s t => by rw [Product.u, Product.words, uapp_w0, power_w0 t, product_w0 s]
theorem power_w0 : ∀ s : Power, s.u.w0 begin0 = s.words
  | .one t => by rw [Power.u, Power.words, USeq.w0, atom_w0 t]
  | .raised s t => by rw [Power.u, Power.words, uapp_w0, USeq.w0, atom_w0 t, power_w0 s]
theorem atom_w0 : ∀ a : Atom, a.u.w0 begin0 = a.words
  | .num x => by rw [Atom.u, Atom.words, UOpd.w0]
  | .bracket s => by rw [Atom.u, Atom.words, UOpd.w0, sum_w0 s]; rfl
  | .func k s => by rw [Atom.u, Atom.words, UOpd.w0, sum_w0 s]; rfl
  | .neg a => by rw [Atom.u, Atom.words, UOpd.w0, atom_w0 a]; rfl
  | .pos a => by rw [Atom.u, Atom.words, UOpd.w0, atom_w0 a]; rfl
end

/-- A term of EVALUATE among the terms of PARSE. -/
def Tok.word : Tok → Word
  | .num x => .num x
  | .op o => .op o
  | .lp => .lp
  | .rp => .rp
  | .fn k => .fn k
  | .fin => .fin

mutual
theorem sum_w2 : ∀ s : Sum, (s.u.all true).w2 = s.toks.map Tok.word
  | .one t => by rw [Sum.u, Sum.toks, product_w2 t]
  | .plus s t => by rw [Sum.u, Sum.toks, uapp_w2, product_w2 t, sum_w2 s]; simp [Tok.word]
  | .minus s t => by rw [Sum.u, Sum.toks, uapp_w2, product_w2 t, sum_w2 s]; simp [Tok.word]
theorem product_w2 : ∀ s : Product, (s.u.all true).w2 = s.toks.map Tok.word
  | .one t => by rw [Product.u, Product.toks, power_w2 t]
  | .times s t => by rw [Product.u, Product.toks, uapp_w2, power_w2 t, product_w2 s]; simp [Tok.word]
  | .over s t => by rw [Product.u, Product.toks, uapp_w2, power_w2 t, product_w2 s]; simp [Tok.word]
theorem power_w2 : ∀ s : Power, (s.u.all true).w2 = s.toks.map Tok.word
  | .one t => by rw [Power.u, Power.toks, USeq.all, USeq.w2, atom_w2 t]
  | .raised s t => by rw [Power.u, Power.toks, uapp_w2, USeq.all, USeq.w2, atom_w2 t, power_w2 s]; simp [Tok.word]
theorem atom_w2 : ∀ a : Atom, (a.u.all true).w2 = a.toks.map Tok.word
  | .num x => by rw [Atom.u, Atom.toks, UOpd.all, UOpd.w2]; rfl
  | .bracket s => by rw [Atom.u, Atom.toks, UOpd.all, UOpd.w2, sum_w2 s]; simp [Tok.word, begin2, end2]
  | .func k s => by rw [Atom.u, Atom.toks, UOpd.all, UOpd.w2, sum_w2 s]; simp [Tok.word, begin2, end2]
  | .neg a => by rw [Atom.u, Atom.toks, UOpd.all, UOpd.w2, atom_w2 a]; simp [Tok.word, sgnFn]
  | .pos a => by rw [Atom.u, Atom.toks, UOpd.all, UOpd.w2, atom_w2 a]; simp [Tok.word, sgnFn]
end

theorem mapM_word : ∀ l : List Tok, (l.map Tok.word).mapM Word.tok = some l
  | [] => rfl
  | t :: l => by
    rw [List.map_cons, List.mapM_cons, mapM_word l]
    cases t <;> rfl

theorem equation_sum (L : Lib) (e : Sum) : equation L e.words = e.val L := by
  unfold equation
  rw [← sum_w0, parse_useq, sum_w2]
  simp only [Option.bind_eq_bind, Option.bind_some, mapM_word]
  exact evaluate_sum L e _ (by omega)

end Verif.TspEq
