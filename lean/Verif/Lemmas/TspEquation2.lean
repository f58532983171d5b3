import Verif.Lemmas.TspEquation1
/-
Lemmas for C132: operators.
-/
namespace Verif.TspEq

/-! ### Numbers with operators between them -/

/-- The first operator `o` is carried out. -/
def redL (L : Lib) (o : Op) : Rat → List (Op × Rat) → Option (Option (Rat × List (Op × Rat)))
  | _, [] => none
  | x, (o', y) :: l =>
    if o' = o then some ((operate L o x y).map fun z => (z, l))
    else (redL L o y l).map (·.map fun p => (x, (o', p.1) :: p.2))

theorem ev_none (L : Lib) (s : Rat → Rat) (m : Rat → Option Rat) (b : Rat) (l : List (Op × Rat)) (h : ∀ p ∈ l.head?, p.1 ≠ .pow)
    (hm : m b = none) : ev L s m b l = none := by
  rcases l with _ | ⟨⟨o, y⟩, l⟩
  · simp [ev, hm]
  · cases o <;> simp [ev, hm] at h ⊢

theorem ev_head (L : Lib) (s : Rat → Rat) (m m' : Rat → Option Rat) (b b' : Rat) (l : List (Op × Rat)) (h : ∀ p ∈ l.head?, p.1 ≠ .pow)
    (hm : m b = m' b') : ev L s m b l = ev L s m' b' l := by
  rcases l with _ | ⟨⟨o, y⟩, l⟩
  · simp [ev, hm]
  · cases o <;> simp [ev, hm] at h ⊢

theorem ev_head_sum (L : Lib) (s s' : Rat → Rat) (b b' : Rat) (l : List (Op × Rat))
    (h : ∀ p ∈ l.head?, p.1 = .add ∨ p.1 = .sub) (hs : s b = s' b') : ev L s some b l = ev L s' some b' l := by
  rcases l with _ | ⟨⟨o, y⟩, l⟩
  · simp [ev, hs]
  · cases o <;> simp [ev, hs] at h ⊢

theorem red_pow (L : Lib) : ∀ (l : List (Op × Rat)) (s : Rat → Rat) (m : Rat → Option Rat) (x : Rat) (r : Option (Rat × List (Op × Rat))),
    redL L .pow x l = some r → r.bind (fun p => ev L s m p.1 p.2) = ev L s m x l
  | [], _, _, _, _, h => by rw [redL] at h; cases h
  | (o', y) :: l, s, m, x, r, h => by
    rw [redL] at h
    split at h
    · rename_i ho
      subst ho
      cases h
      rw [ev]
      cases operate L .pow x y <;> simp
    · rename_i ho
      cases hr : redL L .pow y l with
      | none => rw [hr] at h; cases h
      | some r' =>
        rw [hr] at h
        cases h
        have ih := fun s' m' => red_pow L l s' m' y r' hr
        cases o' with
        | pow => exact absurd rfl ho
        | _ =>
          rw [ev]
          simp only [← ih]
          cases r' <;> cases hm : m x <;> simp [ev, hm]

theorem some_one_mul : (some : Rat → Option Rat) = fun z => some (1 * z) := by funext z; rw [one_mul]

theorem not_head {l : List (Op × Rat)} {o : Op} (h : ∀ p ∈ l, p.1 ≠ o) : ∀ p ∈ l.head?, p.1 ≠ o := by
  intro p hp
  rcases l with _ | ⟨q, l⟩
  · cases hp
  · simp only [List.head?_cons, Option.mem_def, Option.some.injEq] at hp
    exact h p (hp ▸ List.mem_cons_self ..)

theorem red_div (L : Lib) : ∀ (l : List (Op × Rat)) (_ : ∀ p ∈ l, p.1 ≠ .pow) (s : Rat → Rat) (c x : Rat)
    (r : Option (Rat × List (Op × Rat))), redL L .div x l = some r →
    r.bind (fun p => ev L s (fun z => some (c * z)) p.1 p.2) = ev L s (fun z => some (c * z)) x l
  | [], _, _, _, _, _, h => by rw [redL] at h; cases h
  | (o', y) :: l, hp, s, c, x, r, h => by
    have hl : ∀ p ∈ l, p.1 ≠ .pow := fun p m => hp p (List.mem_cons_of_mem _ m)
    rw [redL] at h
    split at h
    · rename_i ho
      subst ho
      cases h
      rw [ev, operate]
      by_cases hy : y = 0
      · rw [if_pos hy, Option.bind_some, ev_none L s _ y l (not_head hl)]
        · rfl
        · simp [operate, hy]
      · rw [if_neg hy, Option.bind_some]
        simp only [Option.map_some, Option.bind_some]
        apply ev_head L s _ _ _ _ l (not_head hl)
        simp only [operate, if_neg hy, Option.some.injEq]
        ring
    · rename_i ho
      cases hr : redL L .div y l with
      | none => rw [hr] at h; cases h
      | some r' =>
        rw [hr] at h
        cases h
        have ih := fun s' c' => red_div L l hl s' c' y r' hr
        cases o' with
        | pow => exact absurd rfl (hp _ (List.mem_cons_self ..))
        | div => exact absurd rfl ho
        | mul =>
          rw [ev, Option.bind_some, ← ih]
          cases r' <;> simp [ev]
        | sub =>
          rw [ev, Option.bind_some, some_one_mul, ← ih]
          cases r' <;> simp [ev]
        | add =>
          rw [ev, Option.bind_some, some_one_mul, ← ih]
          cases r' <;> simp [ev]

theorem red_mul (L : Lib) : ∀ (l : List (Op × Rat)) (_ : ∀ p ∈ l, p.1 ≠ .pow) (_ : ∀ p ∈ l, p.1 ≠ .div) (s : Rat → Rat) (c x : Rat)
    (r : Option (Rat × List (Op × Rat))), redL L .mul x l = some r →
    r.bind (fun p => ev L s (fun z => some (c * z)) p.1 p.2) = ev L s (fun z => some (c * z)) x l
  | [], _, _, _, _, _, _, h => by rw [redL] at h; cases h
  | (o', y) :: l, hp, hd, s, c, x, r, h => by
    have hl : ∀ p ∈ l, p.1 ≠ .pow := fun p m => hp p (List.mem_cons_of_mem _ m)
    have hl' : ∀ p ∈ l, p.1 ≠ .div := fun p m => hd p (List.mem_cons_of_mem _ m)
    rw [redL] at h
    split at h
    · rename_i ho
      subst ho
      cases h
      rw [ev, operate, Option.bind_some]
      simp only [Option.map_some, Option.bind_some]
      apply ev_head L s _ _ _ _ l (not_head hl)
      rw [mul_assoc]
    · rename_i ho
      cases hr : redL L .mul y l with
      | none => rw [hr] at h; cases h
      | some r' =>
        rw [hr] at h
        cases h
        have ih := fun s' c' => red_mul L l hl hl' s' c' y r' hr
        cases o' with
        | pow => exact absurd rfl (hp _ (List.mem_cons_self ..))
        | div => exact absurd rfl (hd _ (List.mem_cons_self ..))
        | mul => exact absurd rfl ho
        | sub =>
          rw [ev, Option.bind_some, some_one_mul, ← ih]
          cases r' <;> simp [ev]
        | add =>
          rw [ev, Option.bind_some, some_one_mul, ← ih]
          cases r' <;> simp [ev]

theorem only_head {l : List (Op × Rat)} (h : ∀ p ∈ l, p.1 = .add ∨ p.1 = .sub) : ∀ p ∈ l.head?, p.1 = .add ∨ p.1 = .sub := by
  intro p hp
  rcases l with _ | ⟨q, l⟩
  · cases hp
  · simp only [List.head?_cons, Option.mem_def, Option.some.injEq] at hp
    exact h p (hp ▸ List.mem_cons_self ..)

theorem red_sub (L : Lib) : ∀ (l : List (Op × Rat)) (_ : ∀ p ∈ l, p.1 = .add ∨ p.1 = .sub) (c x : Rat)
    (r : Option (Rat × List (Op × Rat))), redL L .sub x l = some r →
    r.bind (fun p => ev L (fun z => c + z) some p.1 p.2) = ev L (fun z => c + z) some x l
  | [], _, _, _, _, h => by rw [redL] at h; cases h
  | (o', y) :: l, hp, c, x, r, h => by
    have hl : ∀ p ∈ l, p.1 = .add ∨ p.1 = .sub := fun p m => hp p (List.mem_cons_of_mem _ m)
    rw [redL] at h
    split at h
    · rename_i ho
      subst ho
      cases h
      rw [ev, operate, Option.bind_some]
      simp only [Option.map_some, Option.bind_some]
      apply ev_head_sum L _ _ _ _ l (only_head hl)
      ring
    · rename_i ho
      cases hr : redL L .sub y l with
      | none => rw [hr] at h; cases h
      | some r' =>
        rw [hr] at h
        cases h
        have ih := fun c' => red_sub L l hl c' y r' hr
        have h0 := hp _ (List.mem_cons_self ..)
        cases o' with
        | add =>
          rw [ev, Option.bind_some, ← ih]
          cases r' <;> simp [ev]
        | sub => exact absurd rfl ho
        | _ => simp at h0

theorem red_add (L : Lib) (l : List (Op × Rat)) (hp : ∀ p ∈ l, p.1 = .add) (c x : Rat)
    (r : Option (Rat × List (Op × Rat))) (h : redL L .add x l = some r) :
    r.bind (fun p => ev L (fun z => c + z) some p.1 p.2) = ev L (fun z => c + z) some x l := by
  rcases l with _ | ⟨⟨o', y⟩, l⟩
  · rw [redL] at h; cases h
  · have h0 : o' = .add := hp _ (List.mem_cons_self ..)
    subst h0
    rw [redL, if_pos rfl] at h
    cases h
    rw [ev, operate, Option.bind_some]
    simp only [Option.map_some, Option.bind_some]
    apply ev_head_sum L _ _ _ _ l (only_head fun p m => Or.inl (hp p (List.mem_cons_of_mem _ m)))
    ring

theorem redL_none (L : Lib) (o : Op) : ∀ (l : List (Op × Rat)) (x : Rat), redL L o x l = none ↔ ∀ p ∈ l, p.1 ≠ o
  | [], x => by simp [redL]
  | (o', y) :: l, x => by
    rw [redL]
    split
    · rename_i ho
      simp [ho]
    · rename_i ho
      rw [Option.map_eq_none_iff, redL_none L o l y]
      simp [ho]

/-- Operators that are looked for before another one. -/
def before : Op → List Op
  | .pow => []
  | .div => [.pow]
  | .mul => [.pow, .div]
  | .sub => [.pow, .div, .mul]
  | .add => [.pow, .div, .mul, .sub]

theorem id_zero_add : (id : Rat → Rat) = fun z => 0 + z := by funext z; simp

theorem red_val (L : Lib) (o : Op) (x : Rat) (l : List (Op × Rat)) (r : Option (Rat × List (Op × Rat))) (h : redL L o x l = some r)
    (hb : ∀ o' ∈ before o, redL L o' x l = none) : r.bind (evFlat L) = evFlat L (x, l) := by
  unfold evFlat
  have hb' : ∀ o' ∈ before o, ∀ p ∈ l, p.1 ≠ o' := fun o' m => (redL_none L o' l x).1 (hb o' m)
  cases o with
  | pow => exact red_pow L l id some x r h
  | div =>
    rw [some_one_mul]
    exact red_div L l (hb' .pow (by simp [before])) id 1 x r h
  | mul =>
    rw [some_one_mul]
    exact red_mul L l (hb' .pow (by simp [before])) (hb' .div (by simp [before])) id 1 x r h
  | sub =>
    rw [id_zero_add]
    refine red_sub L l ?_ 0 x r h
    intro p m
    have h1 := hb' .pow (by simp [before]) p m
    have h2 := hb' .div (by simp [before]) p m
    have h3 := hb' .mul (by simp [before]) p m
    cases hp : p.1 <;> simp_all
  | add =>
    rw [id_zero_add]
    refine red_add L l ?_ 0 x r h
    intro p m
    have h1 := hb' .pow (by simp [before]) p m
    have h2 := hb' .div (by simp [before]) p m
    have h3 := hb' .mul (by simp [before]) p m
    have h4 := hb' .sub (by simp [before]) p m
    cases hp : p.1 <;> simp_all

/-! ### Levels -/

mutual
/-- The highest level of an operator in operands of level `c`. -/
def Seq.mx (c : Nat) : Seq → Nat
  | .one a => a.mx c
  | .cons a _ s => max c (max (a.mx c) (s.mx c))
def Opd.mx (c : Nat) : Opd → Nat
  | .num _ => 0
  | .grp _ s => s.mx (c + 1)
end

theorem rank_opening (c : Int) (k : Option Nat) (R : List Tok) : rank c (opening k :: R) = (opening k, 0) :: rank (c + 1) R := by
  cases k <;> rfl

theorem rank_closing (c : Int) (k : Option Nat) (R : List Tok) : rank c (closing k :: R) = (closing k, 0) :: rank (c - 1) R := by
  cases k <;> rfl

mutual
theorem seq_rank : ∀ (s : Seq) (c : Int) (R : List Tok), rank c (s.tk ++ R) = rank c s.tk ++ rank c R
  | .one a, c, R => by rw [Seq.tk, opd_rank a]
  | .cons a o s, c, R => by
    rw [Seq.tk, List.append_assoc, opd_rank a, opd_rank a c (.op o :: s.tk), List.cons_append, rank, seq_rank s, rank]
    simp
theorem opd_rank : ∀ (a : Opd) (c : Int) (R : List Tok), rank c (a.tk ++ R) = rank c a.tk ++ rank c R
  | .num x, c, R => by simp [Opd.tk, rank]
  | .grp k s, c, R => by
    rw [Opd.tk, List.cons_append, rank_opening, rank_opening, List.append_assoc, seq_rank s, seq_rank s _ [closing k],
      List.singleton_append, rank_closing, rank_closing]
    simp [rank]
end

theorem rank_cons (a : Opd) (o : Op) (s : Seq) (c : Int) : rank c (Seq.cons a o s).tk = rank c a.tk ++ (.op o, c) :: rank c s.tk := by
  rw [Seq.tk, opd_rank, rank]

theorem rank_grp (k : Option Nat) (s : Seq) (c : Int) :
    rank c (Opd.grp k s).tk = (opening k, 0) :: (rank (c + 1) s.tk ++ [(closing k, 0)]) := by
  rw [Opd.tk, rank_opening, seq_rank, rank_closing]
  rfl

mutual
theorem seq_rank_fst : ∀ (s : Seq) (c : Int), (rank c s.tk).map Prod.fst = s.tk
  | .one a, c => by rw [Seq.tk, opd_rank_fst a]
  | .cons a o s, c => by rw [rank_cons, Seq.tk]; simp [opd_rank_fst a, seq_rank_fst s]
theorem opd_rank_fst : ∀ (a : Opd) (c : Int), (rank c a.tk).map Prod.fst = a.tk
  | .num x, c => by simp [Opd.tk, rank]
  | .grp k s, c => by rw [rank_grp, Opd.tk]; simp [seq_rank_fst s]
end

def ordStep (m : Int) (t : Tok × Int) : Int := match t.1 with | .op _ => max m t.2 | _ => m

theorem ordStep_open (m : Int) (k : Option Nat) (i : Int) : ordStep m (opening k, i) = m := by cases k <;> rfl
theorem ordStep_close (m : Int) (k : Option Nat) (i : Int) : ordStep m (closing k, i) = m := by cases k <;> rfl

mutual
theorem seq_ord : ∀ (s : Seq) (c : Nat) (m : Int), 0 ≤ m → (rank c s.tk).foldl ordStep m = max m (s.mx c : Int)
  | .one a, c, m, h => by rw [Seq.tk, opd_ord a c m h, Seq.mx]
  | .cons a o s, c, m, h => by
    rw [rank_cons, List.foldl_append, opd_ord a c m h, List.foldl_cons]
    have e : ordStep (max m (a.mx c : Int)) (.op o, (c : Int)) = max (max m (a.mx c : Int)) c := rfl
    rw [e, seq_ord s c _ (by omega), Seq.mx]
    push_cast
    omega
theorem opd_ord : ∀ (a : Opd) (c : Nat) (m : Int), 0 ≤ m → (rank c a.tk).foldl ordStep m = max m (a.mx c : Int)
  | .num x, c, m, h => by
    rw [Opd.mx, Opd.tk]
    have e : (rank c [.num x]).foldl ordStep m = m := rfl
    rw [e]
    omega
  | .grp k s, c, m, h => by
    rw [rank_grp, List.foldl_cons, ordStep_open, List.foldl_append, List.foldl_cons, List.foldl_nil, ordStep_close, Opd.mx]
    exact_mod_cast seq_ord s (c + 1) m h
end

theorem maxOrd_tk (s : Seq) : maxOrd (rank 1 s.tk) = s.mx 1 := by
  have h := seq_ord s 1 0 le_rfl
  have e : maxOrd (rank 1 s.tk) = (rank ((1 : Nat) : Int) s.tk).foldl ordStep 0 := rfl
  rw [e, h]
  omega

mutual
theorem seq_mx_ge : ∀ (s : Seq) (c : Nat), s.tight → (∀ x, s ≠ .one (.num x)) → c ≤ s.mx c
  | .one (.num x), c, _, h => absurd rfl (h x)
  | .one (.grp k s), c, ht, _ => by
    rw [Seq.tight] at ht
    rw [Seq.mx]
    have := opd_mx_ge (.grp k s) c ht (by intro x h; cases h)
    omega
  | .cons a o s, c, _, _ => by rw [Seq.mx]; omega
theorem opd_mx_ge : ∀ (a : Opd) (c : Nat), a.tight → (∀ x, a ≠ .num x) → c + 1 ≤ a.mx c
  | .num x, c, _, h => absurd rfl (h x)
  | .grp k s, c, ht, _ => by
    rw [Opd.tight] at ht
    rw [Opd.mx]
    exact seq_mx_ge s (c + 1) ht.2 ht.1
end

end Verif.TspEq
