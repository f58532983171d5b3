import Verif.Lemmas.TspEquation2
/-
Lemmas for C132: the operator that is carried out, and the whole evaluation.
-/
namespace Verif.TspEq

/-- The number at the beginning is replaced. -/
def Seq.starts : Seq → Option (Rat × (Rat → Seq))
  | .one (.num y) => some (y, fun z => .one (.num z))
  | .cons (.num y) o s => some (y, fun z => .cons (.num z) o s)
  | _ => none

/-- An operand that is a number. -/
def Opd.val? : Opd → Option Rat
  | .num x => some x
  | _ => none

/-- The operator between two operands that are numbers. -/
def here (L : Lib) (i : Nat) (o : Op) (c : Nat) (a : Opd) (o' : Op) (s : Seq) : Option (Option Seq) :=
  if c = i ∧ o' = o then a.val?.bind fun x => s.starts.map fun p => (operate L o x p.1).map p.2 else none

mutual
/-- The first operator `o` of level `i` between two numbers is carried out. -/
def Seq.opr (L : Lib) (i : Nat) (o : Op) (c : Nat) : Seq → Option (Option Seq)
  | .one a => (a.opr L i o c).map (·.map .one)
  | .cons a o' s => match a.opr L i o c with
    | some r => some (r.map fun a' => .cons a' o' s)
    | none => match here L i o c a o' s with
      | some r => some r
      | none => (s.opr L i o c).map (·.map (.cons a o'))
def Opd.opr (L : Lib) (i : Nat) (o : Op) (c : Nat) : Opd → Option (Option Opd)
  | .num _ => none
  | .grp k s => (s.opr L i o (c + 1)).map (·.map (.grp k))
end

theorem at_skip (L : Lib) (i : Nat) (o : Op) {a : Tok} {ra : Int} (h : 0 ≤ ra) (l : List (Tok × Int)) :
    operateAt L i o ((a, ra) :: l) = (operateAt L i o l).map (·.map (a :: ·)) := by
  rcases l with _ | ⟨⟨t, rt⟩, _ | ⟨⟨b, rb⟩, r⟩⟩
  · rfl
  · rfl
  · rw [operateAt, if_neg]
    rintro ⟨_, _, h1, _⟩
    omega

theorem at_skip2 (L : Lib) (i : Nat) (o : Op) {a t : Tok} {ra rt : Int} (h : ¬ (rt = i ∧ t = .op o)) (l : List (Tok × Int)) :
    operateAt L i o ((a, ra) :: (t, rt) :: l) = (operateAt L i o ((t, rt) :: l)).map (·.map (a :: ·)) := by
  rcases l with _ | ⟨⟨b, rb⟩, r⟩
  · rfl
  · rw [operateAt, if_neg]
    rintro ⟨h1, h2, _⟩
    exact h ⟨h1, h2⟩

/-- What may come after operands: nothing or the end of a group. -/
def Ends (R : List (Tok × Int)) : Prop := R = [] ∨ ∃ t R', R = (t, 0) :: R' ∧ (∀ o, t ≠ .op o)

theorem starts_some {s : Seq} {y : Rat} {f : Rat → Seq} (h : s.starts = some (y, f)) (c : Int) :
    ∃ u, rank c s.tk = (.num y, -1) :: u ∧ ∀ z, (f z).tk = .num z :: u.map Prod.fst := by
  match s, h with
  | .one (.num y), h => cases h; exact ⟨[], by simp [Seq.tk, Opd.tk, rank], fun z => by simp [Seq.tk, Opd.tk]⟩
  | .cons (.num y) o s, h =>
    cases h
    refine ⟨(.op o, c) :: rank c s.tk, ?_, fun z => ?_⟩
    · rw [rank_cons]; simp [Opd.tk, rank]
    · simp [Seq.tk, Opd.tk, seq_rank_fst]

theorem starts_none {s : Seq} (h : s.starts = none) (c : Int) : ∃ t u, rank c s.tk = (t, 0) :: u := by
  match s, h with
  | .one (.grp k s), _ => rw [Seq.tk, rank_grp]; exact ⟨_, _, rfl⟩
  | .cons (.grp k s) o s', _ => rw [rank_cons, rank_grp]; exact ⟨_, _, rfl⟩

theorem closing_op (k : Option Nat) (o : Op) : closing k ≠ .op o := by cases k <;> simp [closing]

mutual
theorem seq_opr (L : Lib) (i : Nat) (hi : 1 ≤ i) (o : Op) : ∀ (s : Seq) (c : Nat) (R : List (Tok × Int)), Ends R →
    operateAt L i o (rank c s.tk ++ R) =
    match s.opr L i o c with
    | some r => some (r.map fun s' => s'.tk ++ R.map Prod.fst)
    | none => (operateAt L i o R).map (·.map (s.tk ++ ·))
  | .one (.num x), c, R, hR => by
    rw [Seq.opr, Opd.opr]
    simp only [Option.map_none, Seq.tk, Opd.tk, rank, List.singleton_append]
    rcases hR with rfl | ⟨t, R', rfl, ht⟩
    · rfl
    · rw [at_skip2]
      rintro ⟨h, _⟩
      omega
  | .one (.grp k s), c, R, hR => by
    rw [Seq.opr, Seq.tk, opd_opr L i hi o (.grp k s) (by intro x h; cases h) c R]
    rcases (Opd.grp k s).opr L i o c with _ | _ | a' <;> simp [Seq.tk]
  | .cons a o' s, c, R, hR => by
    rw [rank_cons, List.append_assoc, Seq.opr]
    have ih := seq_opr L i hi o s c R hR
    by_cases ha : ∃ x, a = .num x
    · obtain ⟨x, rfl⟩ := ha
      rw [Opd.opr]
      simp only [Opd.tk, rank, List.singleton_append, List.cons_append, List.nil_append]
      by_cases hc : c = i ∧ o' = o
      · obtain ⟨rfl, rfl⟩ := hc
        cases hs : s.starts with
        | some p =>
          obtain ⟨y, f⟩ := p
          obtain ⟨u, h1, h2⟩ := starts_some hs c
          rw [h1, List.cons_append, operateAt, if_pos ⟨rfl, rfl, by omega, by omega⟩]
          simp only [here, if_true, and_self, Opd.val?, hs, Option.bind_some, Option.map_some]
          rw [operateTok]
          cases operate L o' x y <;> simp [h2]
        | none =>
          obtain ⟨t, u, h1⟩ := starts_none hs c
          have e : operateAt L c o' ((.num x, -1) :: (.op o', (c : Int)) :: (rank c s.tk ++ R)) =
              (operateAt L c o' ((.op o', (c : Int)) :: (rank c s.tk ++ R))).map (·.map (.num x :: ·)) := by
            rw [h1, List.cons_append, operateAt, if_neg (by rintro ⟨_, _, _, h⟩; omega)]
          rw [e, at_skip L c o' (by omega), ih]
          simp only [here, if_true, and_self, Opd.val?, hs, Option.bind_some, Option.map_none]
          rcases s.opr L c o' c with _ | _ | s'
          · rcases operateAt L c o' R with _ | _ | r <;> simp [Seq.tk, Opd.tk]
          · simp
          · simp [Seq.tk, Opd.tk]
      · rw [at_skip2 L i o (by rintro ⟨h1, h2⟩; exact hc ⟨by exact_mod_cast h1, by injection h2⟩), at_skip L i o (by omega), ih]
        simp only [here, if_neg hc]
        rcases s.opr L i o c with _ | _ | s'
        · rcases operateAt L i o R with _ | _ | r <;> simp [Seq.tk, Opd.tk]
        · simp
        · simp [Seq.tk, Opd.tk]
    · have ha' : ∀ x, a ≠ .num x := fun x h => ha ⟨x, h⟩
      rw [opd_opr L i hi o a ha' c]
      rcases a.opr L i o c with _ | _ | a'
      · have hh : here L i o c a o' s = none := by
          unfold here
          split
          · cases a with
            | num x => exact absurd rfl (ha' x)
            | grp k s => rfl
          · rfl
        simp only [hh]
        rw [List.cons_append, at_skip L i o (by omega), ih]
        rcases s.opr L i o c with _ | _ | s'
        · rcases operateAt L i o R with _ | _ | r <;> simp [Seq.tk]
        · simp
        · simp [Seq.tk]
      · simp
      · simp [Seq.tk, seq_rank_fst]
theorem opd_opr (L : Lib) (i : Nat) (hi : 1 ≤ i) (o : Op) : ∀ (a : Opd), (∀ x, a ≠ .num x) → ∀ (c : Nat) (R : List (Tok × Int)),
    operateAt L i o (rank c a.tk ++ R) =
    match a.opr L i o c with
    | some r => some (r.map fun a' => a'.tk ++ R.map Prod.fst)
    | none => (operateAt L i o R).map (·.map (a.tk ++ ·))
  | .num x, h, _, _ => absurd rfl (h x)
  | .grp k s, _, c, R => by
    rw [rank_grp, List.cons_append, at_skip L i o le_rfl, List.append_assoc, List.singleton_append, Opd.opr]
    have ih := seq_opr L i hi o s (c + 1) ((closing k, 0) :: R) (Or.inr ⟨_, _, rfl, closing_op k⟩)
    push_cast at ih
    rw [ih, at_skip L i o le_rfl]
    rcases s.opr L i o (c + 1) with _ | _ | s'
    · rcases operateAt L i o R with _ | _ | r <;> simp [Opd.tk]
    · simp
    · simp [Opd.tk]
end

/-! ### Values -/

/-- Numbers with operators between them, as operands. -/
def ofNums (x : Rat) : List (Op × Rat) → Seq
  | [] => .one (.num x)
  | (o, y) :: l => .cons (.num x) o (ofNums y l)

theorem flat_ofNums (L : Lib) : ∀ (l : List (Op × Rat)) (x : Rat), (ofNums x l).flat L = some (x, l)
  | [], x => by simp [ofNums, Seq.flat, Opd.v]
  | (o, y) :: l, x => by simp [ofNums, Seq.flat, Opd.v, flat_ofNums L l y]

theorem starts_ofNums (y : Rat) (l : List (Op × Rat)) : (ofNums y l).starts = some (y, fun z => ofNums z l) := by
  rcases l with _ | ⟨⟨o, z⟩, l⟩ <;> rfl

theorem opr_ofNums (L : Lib) (o : Op) (c : Nat) : ∀ (l : List (Op × Rat)) (x : Rat),
    (ofNums x l).opr L c o c = (redL L o x l).map (·.map fun p => ofNums p.1 p.2)
  | [], x => by simp [ofNums, Seq.opr, Opd.opr, redL]
  | (o', y) :: l, x => by
    rw [ofNums, Seq.opr, Opd.opr, redL]
    simp only [here, Opd.val?, starts_ofNums]
    by_cases h : o' = o
    · simp only [h, if_true, and_self, Option.bind_some, Option.map_some]
      cases operate L o x y <;> simp
    · simp only [h, and_false, if_false, opr_ofNums L o c l y]
      rcases redL L o y l with _ | _ | p <;> simp [ofNums]

mutual
theorem seq_nums : ∀ (s : Seq) (c : Nat), s.tight → s.mx c ≤ c → ∃ x l, s = ofNums x l
  | .one (.num x), c, _, _ => ⟨x, [], rfl⟩
  | .one (.grp k s), c, ht, h => by
    rw [Seq.tight] at ht
    have := opd_mx_ge _ c ht (by intro x h; cases h)
    rw [Seq.mx] at h
    omega
  | .cons (.num x) o s, c, ht, h => by
    rw [Seq.tight] at ht
    rw [Seq.mx] at h
    obtain ⟨y, l, rfl⟩ := seq_nums s c ht.2 (by omega)
    exact ⟨x, (o, y) :: l, rfl⟩
  | .cons (.grp k s') o s, c, ht, h => by
    rw [Seq.tight] at ht
    have := opd_mx_ge _ c ht.1 (by intro x h; cases h)
    rw [Seq.mx] at h
    omega
end

theorem opr_one_none {L : Lib} {i c : Nat} {o : Op} {a : Opd} (h : (Seq.one a).opr L i o c = none) : a.opr L i o c = none := by
  rw [Seq.opr, Option.map_eq_none_iff] at h
  exact h

theorem opr_cons_none {L : Lib} {i c : Nat} {o o' : Op} {a : Opd} {s : Seq} (h : (Seq.cons a o' s).opr L i o c = none) :
    a.opr L i o c = none ∧ s.opr L i o c = none := by
  rw [Seq.opr] at h
  cases ha : a.opr L i o c with
  | some r => rw [ha] at h; cases h
  | none =>
    rw [ha] at h
    cases hh : here L i o c a o' s with
    | some r => rw [hh] at h; cases h
    | none =>
      rw [hh] at h
      simp only [Option.map_eq_none_iff] at h
      exact ⟨rfl, h⟩

theorem val_of_nums (L : Lib) (i : Nat) (o : Op) (s : Seq) (ht : s.tight) (hm : s.mx i ≤ i) (r : Option Seq)
    (h : s.opr L i o i = some r) (hb : ∀ o' ∈ before o, s.opr L i o' i = none) : r.bind (Seq.v L) = s.v L := by
  obtain ⟨x, l, rfl⟩ := seq_nums s i ht hm
  rw [opr_ofNums] at h
  cases hr : redL L o x l with
  | none => rw [hr] at h; cases h
  | some p =>
    rw [hr] at h
    cases h
    have h1 := red_val L o x l p hr (by
      intro o' m
      have := hb o' m
      rw [opr_ofNums, Option.map_eq_none_iff] at this
      exact this)
    rw [Seq.v, flat_ofNums, Option.bind_some, ← h1]
    cases p <;> simp [Seq.v, flat_ofNums]

mutual
theorem seq_opr_flat (L : Lib) (i : Nat) (o : Op) : ∀ (s : Seq) (c : Nat), c < i → s.tight → s.mx c ≤ i → ∀ (r : Option Seq),
    s.opr L i o c = some r → (∀ o' ∈ before o, s.opr L i o' c = none) → r.bind (Seq.flat L) = s.flat L
  | .one a, c, hc, ht, hm, r, h, hb => by
    rw [Seq.tight] at ht
    rw [Seq.mx] at hm
    rw [Seq.opr] at h
    cases ha : a.opr L i o c with
    | none => rw [ha] at h; cases h
    | some r' =>
      rw [ha] at h
      cases h
      have h1 := opd_opr_val L i o a c hc ht hm r' ha fun o' m => opr_one_none (hb o' m)
      rw [Seq.flat, ← h1]
      cases r' <;> simp [Seq.flat]
  | .cons a o' s, c, hc, ht, hm, r, h, hb => by
    rw [Seq.tight] at ht
    rw [Seq.mx] at hm
    rw [Seq.opr] at h
    cases ha : a.opr L i o c with
    | some r' =>
      rw [ha] at h
      cases h
      have h1 := opd_opr_val L i o a c hc ht.1 (by omega) r' ha fun o' m => (opr_cons_none (hb o' m)).1
      rw [Seq.flat, ← h1]
      cases r' <;> simp [Seq.flat]
    | none =>
      rw [ha] at h
      have hh : here L i o c a o' s = none := by rw [here, if_neg (by omega)]
      simp only [hh] at h
      cases hs : s.opr L i o c with
      | none => rw [hs] at h; cases h
      | some r' =>
        rw [hs] at h
        cases h
        have h1 := seq_opr_flat L i o s c hc ht.2 (by omega) r' hs fun o' m => (opr_cons_none (hb o' m)).2
        rw [Seq.flat, ← h1]
        cases r' <;> simp [Seq.flat]
theorem opd_opr_val (L : Lib) (i : Nat) (o : Op) : ∀ (a : Opd) (c : Nat), c < i → a.tight → a.mx c ≤ i → ∀ (r : Option Opd),
    a.opr L i o c = some r → (∀ o' ∈ before o, a.opr L i o' c = none) → r.bind (Opd.v L) = a.v L
  | .num x, c, _, _, _, r, h, _ => by rw [Opd.opr] at h; cases h
  | .grp k s, c, hc, ht, hm, r, h, hb => by
    rw [Opd.tight] at ht
    rw [Opd.mx] at hm
    rw [Opd.opr] at h
    cases hs : s.opr L i o (c + 1) with
    | none => rw [hs] at h; cases h
    | some r' =>
      rw [hs] at h
      cases h
      have hb' : ∀ o' ∈ before o, s.opr L i o' (c + 1) = none := by
        intro o' m
        have := hb o' m
        rw [Opd.opr, Option.map_eq_none_iff] at this
        exact this
      have h1 : r'.bind (Seq.v L) = s.v L := by
        rcases Nat.lt_or_ge (c + 1) i with hlt | hge
        · have h2 := seq_opr_flat L i o s (c + 1) hlt ht.2 hm r' hs hb'
          rw [Seq.v, ← h2]
          cases r' <;> simp [Seq.v]
        · obtain rfl : i = c + 1 := by omega
          exact val_of_nums L (c + 1) o s ht.2 hm r' hs hb'
      have e : (Opd.grp k s).v L = (s.v L).bind (grpVal L k) := by rw [Opd.v, Seq.v]
      rw [e, ← h1]
      cases r' <;> simp [Opd.v, Seq.v]
end

theorem opr_val (L : Lib) (i : Nat) (hi : 1 ≤ i) (o : Op) (s : Seq) (ht : s.tight) (hm : s.mx 1 ≤ i) (r : Option Seq)
    (h : s.opr L i o 1 = some r) (hb : ∀ o' ∈ before o, s.opr L i o' 1 = none) : r.bind (Seq.v L) = s.v L := by
  rcases Nat.lt_or_ge 1 i with hlt | hge
  · have h2 := seq_opr_flat L i o s 1 hlt ht hm r h hb
    rw [Seq.v, ← h2]
    cases r <;> simp [Seq.v]
  · obtain rfl : i = 1 := by omega
    exact val_of_nums L 1 o s ht hm r h hb

/-! ### There is an operator to carry out -/

theorem opr_cons_left {L : Lib} {i c : Nat} {o o' : Op} {a : Opd} {s : Seq} (h : a.opr L i o c ≠ none) :
    (Seq.cons a o' s).opr L i o c ≠ none := fun h1 => h (opr_cons_none h1).1

theorem opr_cons_right {L : Lib} {i c : Nat} {o o' : Op} {a : Opd} {s : Seq} (h : s.opr L i o c ≠ none) :
    (Seq.cons a o' s).opr L i o c ≠ none := fun h1 => h (opr_cons_none h1).2

mutual
theorem seq_progress (L : Lib) : ∀ (s : Seq) (c i : Nat), 1 ≤ i → c ≤ i → s.tight → s.mx c = i → ∃ o, s.opr L i o c ≠ none
  | .one a, c, i, hi, hc, ht, hm => by
    rw [Seq.tight] at ht
    rw [Seq.mx] at hm
    obtain ⟨o, h⟩ := opd_progress L a c i hi hc ht hm
    exact ⟨o, fun h1 => h (opr_one_none h1)⟩
  | .cons a o' s, c, i, hi, hc, ht, hm => by
    rcases Nat.eq_or_lt_of_le hc with rfl | hlt
    · obtain ⟨x, l, e⟩ := seq_nums (.cons a o' s) c ht (by omega)
      rw [e]
      rcases l with _ | ⟨⟨o, y⟩, l⟩
      · cases e
      · refine ⟨o, ?_⟩
        rw [opr_ofNums, redL, if_pos rfl]
        simp
    · rw [Seq.tight] at ht
      rw [Seq.mx] at hm
      rcases Nat.lt_or_ge (a.mx c) i with h1 | h1
      · obtain ⟨o, h⟩ := seq_progress L s c i hi hc ht.2 (by omega)
        exact ⟨o, opr_cons_right h⟩
      · obtain ⟨o, h⟩ := opd_progress L a c i hi hc ht.1 (by omega)
        exact ⟨o, opr_cons_left h⟩
theorem opd_progress (L : Lib) : ∀ (a : Opd) (c i : Nat), 1 ≤ i → c ≤ i → a.tight → a.mx c = i → ∃ o, a.opr L i o c ≠ none
  | .num x, c, i, hi, _, _, hm => by rw [Opd.mx] at hm; omega
  | .grp k s, c, i, hi, hc, ht, hm => by
    rw [Opd.tight] at ht
    rw [Opd.mx] at hm
    have := seq_mx_ge s (c + 1) ht.2 ht.1
    obtain ⟨o, h⟩ := seq_progress L s (c + 1) i hi (by omega) ht.2 hm
    refine ⟨o, ?_⟩
    rw [Opd.opr]
    simpa using h
end

/-! ### Turns -/

theorem at_tk (L : Lib) (i : Nat) (hi : 1 ≤ i) (o : Op) (s : Seq) :
    operateAt L i o (rank 1 s.tk) = (s.opr L i o 1).map (·.map Seq.tk) := by
  have h := seq_opr L i hi o s 1 [] (Or.inl rfl)
  rw [List.append_nil] at h
  have e : operateAt L i o (rank 1 s.tk) = operateAt L i o (rank ((1 : Nat) : Int) s.tk) := rfl
  rw [e, h]
  rcases s.opr L i o 1 with _ | _ | s' <;> simp [operateAt]

theorem findSome_ops {α : Type*} (f : Op → Option α) (h : ∃ o, f o ≠ none) :
    ∃ o r, f o = some r ∧ ops.findSome? f = some r ∧ ∀ o' ∈ before o, f o' = none := by
  have cases' : ∀ o, f o = none ∨ ∃ r, f o = some r := fun o => by cases f o <;> simp
  rcases cases' .pow with h1 | ⟨r, h1⟩
  swap; · exact ⟨.pow, r, h1, by simp [ops, h1], by simp [before]⟩
  rcases cases' .div with h2 | ⟨r, h2⟩
  swap; · exact ⟨.div, r, h2, by simp [ops, h1, h2], by simp [before, h1]⟩
  rcases cases' .mul with h3 | ⟨r, h3⟩
  swap; · exact ⟨.mul, r, h3, by simp [ops, h1, h2, h3], by simp [before, h1, h2]⟩
  rcases cases' .sub with h4 | ⟨r, h4⟩
  swap; · exact ⟨.sub, r, h4, by simp [ops, h1, h2, h3, h4], by simp [before, h1, h2, h3]⟩
  rcases cases' .add with h5 | ⟨r, h5⟩
  swap; · exact ⟨.add, r, h5, by simp [ops, h1, h2, h3, h4, h5], by simp [before, h1, h2, h3, h4]⟩
  obtain ⟨o, ho⟩ := h
  cases o <;> contradiction

theorem unbracket_length : ∀ (l l' : List Tok), unbracket l = some l' → l'.length < l.length := by
  intro l
  induction l with
  | nil => intro l' h; cases h
  | cons t r ih =>
    intro l' h
    unfold unbracket at h
    split at h
    · rename_i e
      injection e with e1 e2
      cases h
      subst e2
      simp
    · rename_i r' e
      injection e with e1 e2
      subst e2
      cases hr : unbracket r with
      | none => rw [hr] at h; cases h
      | some l1 => rw [hr] at h; cases h; have := ih l1 hr; simp; omega
    · rename_i e; cases e

theorem call_length (L : Lib) : ∀ (l l' : List Tok), call L l = some (some l') → l'.length < l.length := by
  intro l
  induction l with
  | nil => intro l' h; cases h
  | cons t r ih =>
    intro l' h
    unfold call at h
    split at h
    · rename_i e
      injection e with e1 e2
      subst e2
      injection h with h
      split at h
      · rename_i x
        cases hf : funcEval L _ x with
        | none => rw [hf] at h; cases h
        | some y => rw [hf] at h; cases h; simp
      · cases h
    · rename_i r' e
      injection e with e1 e2
      subst e2
      rcases hr : call L r with _ | _ | l1
      · rw [hr] at h; cases h
      · rw [hr] at h; cases h
      · rw [hr] at h; cases h; have := ih l1 hr; simp; omega
    · rename_i e; cases e

theorem at_length (L : Lib) (i : Int) (o : Op) : ∀ (l : List (Tok × Int)) (l' : List Tok), operateAt L i o l = some (some l') →
    l'.length < l.length := by
  intro l
  induction l with
  | nil => intro l' h; cases h
  | cons a l ih =>
    intro l' h
    rcases l with _ | ⟨⟨t, rt⟩, _ | ⟨⟨b, rb⟩, r⟩⟩
    · cases h
    · cases h
    · rw [operateAt] at h
      split at h
      · injection h with h
        cases ho : operateTok L o a.1 b with
        | none => rw [ho] at h; cases h
        | some z => rw [ho] at h; cases h; simp
      · rcases hr : operateAt L i o ((t, rt) :: (b, rb) :: r) with _ | _ | l1
        · rw [hr] at h; cases h
        · rw [hr] at h; cases h
        · rw [hr] at h; cases h; have := ih l1 hr; simp at this ⊢; omega

/-- A turn keeps the value and takes terms away, unless the value is not defined. -/
theorem turn_spec (L : Lib) (s : Seq) (hs : ∀ x, s ≠ .one (.num x)) :
    (turn L s.tk = none ∧ s.v L = none) ∨ ∃ s' : Seq, turn L s.tk = some s'.tk ∧ s'.v L = s.v L ∧ s'.tk.length < s.tk.length := by
  have hu := seq_unb s []
  rw [List.append_nil] at hu
  unfold turn
  cases h1 : s.unb with
  | some s' =>
    rw [h1] at hu
    simp only [List.append_nil] at hu
    right
    refine ⟨s', by rw [hu], by rw [Seq.v, Seq.v, seq_unb_val L s s' h1], unbracket_length _ _ hu⟩
  | none =>
    rw [h1] at hu
    have hu' : unbracket s.tk = none := hu
    rw [hu']
    have hc := seq_cal L s []
    rw [List.append_nil] at hc
    cases h2 : s.cal L with
    | some r =>
      rw [h2] at hc
      have hv := seq_cal_val L s r h2
      cases r with
      | none =>
        have hc' : call L s.tk = some none := hc
        left
        rw [hc']
        exact ⟨rfl, by rw [Seq.v, ← hv]; rfl⟩
      | some s' =>
        simp only [Option.map_some, List.append_nil] at hc
        right
        refine ⟨s', by rw [hc], by rw [Seq.v, Seq.v, ← hv]; rfl, call_length L _ _ hc⟩
    | none =>
      rw [h2] at hc
      have hc' : call L s.tk = none := hc
      rw [hc']
      have ht := seq_tight L s h1 h2
      have hge := seq_mx_ge s 1 ht hs
      obtain ⟨n, hn⟩ : ∃ n, s.mx 1 = n + 1 := ⟨s.mx 1 - 1, by omega⟩
      rw [maxOrd_tk, Int.toNat_natCast, hn]
      obtain ⟨o, r, e1, e2, e3⟩ := findSome_ops (fun o => operateAt L (n + 1 : Nat) o (rank 1 s.tk)) (by
        obtain ⟨o, h⟩ := seq_progress L s 1 (n + 1) (by omega) (by omega) ht hn
        refine ⟨o, ?_⟩
        rw [at_tk L (n + 1) (by omega)]
        simpa using h)
      simp only [operateAny, e2]
      have e1' := e1
      rw [at_tk L (n + 1) (by omega)] at e1
      cases hr : s.opr L (n + 1) o 1 with
      | none => rw [hr] at e1; cases e1
      | some r' =>
        rw [hr] at e1
        cases e1
        have hv := opr_val L (n + 1) (by omega) o s ht (by omega) r' hr (by
          intro o' m
          have := e3 o' m
          rw [at_tk L (n + 1) (by omega), Option.map_eq_none_iff] at this
          exact this)
        cases r' with
        | none => left; exact ⟨rfl, hv.symm⟩
        | some s' =>
          right
          refine ⟨s', rfl, hv, ?_⟩
          have := at_length L _ _ _ _ e1'
          have e : (rank 1 s.tk).length = s.tk.length := by
            conv_rhs => rw [← seq_rank_fst s 1]
            rw [List.length_map]
          omega

theorem evaluate_tk (L : Lib) : ∀ (n : Nat) (s : Seq), s.tk.length ≤ n + 1 → evaluate L n s.tk = s.v L := by
  intro n
  induction n with
  | zero =>
    intro s h
    rcases seq_second s with ⟨x, rfl⟩ | ⟨t1, t2, u, e, _⟩
    · simp [Seq.tk, Opd.tk, evaluate, Seq.v, Seq.flat, Opd.v, evFlat, ev]
    · rw [e] at h; simp at h
  | succ n ih =>
    intro s h
    rcases seq_second s with ⟨x, rfl⟩ | ⟨t1, t2, u, e, _⟩
    · simp [Seq.tk, Opd.tk, evaluate, Seq.v, Seq.flat, Opd.v, evFlat, ev]
    · have hs : ∀ x, s ≠ .one (.num x) := by
        rintro x rfl
        simp [Seq.tk, Opd.tk] at e
      have e1 : evaluate L (n + 1) s.tk = (turn L s.tk).bind (evaluate L n) := by
        rw [e, evaluate]
        intro x h; cases h
      rw [e1]
      rcases turn_spec L s hs with ⟨h1, h2⟩ | ⟨s', h1, h2, h3⟩
      · rw [h1, h2]; rfl
      · rw [h1, Option.bind_some, ih s' (by omega), h2]

/-! ### The grammar -/

/-- Operands after operands. -/
def Seq.app : Seq → Op → Seq → Seq
  | .one a, o, s' => .cons a o s'
  | .cons a o s, o', s' => .cons a o (s.app o' s')

theorem app_tk : ∀ (s : Seq) (o : Op) (s' : Seq), (s.app o s').tk = s.tk ++ .op o :: s'.tk
  | .one a, o, s' => by rw [Seq.app, Seq.tk, Seq.tk]
  | .cons a o s, o', s' => by rw [Seq.app, Seq.tk, Seq.tk, app_tk s]; simp

theorem app_flat (L : Lib) : ∀ (s : Seq) (o : Op) (s' : Seq), (s.app o s').flat L =
    (s.flat L).bind fun p => (s'.flat L).map fun q => (p.1, p.2 ++ (o, q.1) :: q.2)
  | .one a, o, s' => by rw [Seq.app, Seq.flat, Seq.flat]; cases a.v L <;> simp
  | .cons a o s, o', s' => by
    rw [Seq.app, Seq.flat, Seq.flat, app_flat L s]
    cases a.v L <;> cases s.flat L <;> cases s'.flat L <;> simp

mutual
def Sum.seq : Sum → Seq
  | .one t => t.seq
  | .plus s t => s.seq.app .add t.seq
  | .minus s t => s.seq.app .sub t.seq
def Product.seq : Product → Seq
  | .one p => p.seq
  | .times t p => t.seq.app .mul p.seq
  | .over t p => t.seq.app .div p.seq
def Power.seq : Power → Seq
  | .one a => .one a.opd
  | .raised p a => p.seq.app .pow (.one a.opd)
def Atom.opd : Atom → Opd
  | .num x => .num x
  | .bracket s => .grp none s.seq
  | .func k s => .grp (some (k + 1)) s.seq
  | .neg a => .grp (some 15) (.one a.opd)
  | .pos a => .grp (some 16) (.one a.opd)
end

mutual
theorem sum_tk : ∀ s : Sum, s.seq.tk = s.toks
  | .one t => by rw [Sum.seq, Sum.toks, product_tk t]
  | .plus s t => by rw [Sum.seq, Sum.toks, app_tk, product_tk t, sum_tk s]
  | .minus s t => by rw [Sum.seq, Sum.toks, app_tk, product_tk t, sum_tk s]
theorem product_tk : ∀ s : Product, s.seq.tk = s.toks
  | .one t => by rw [Product.seq, Product.toks, power_tk t]
  | .times s t => by rw [Product.seq, Product.toks, app_tk, power_tk t, product_tk s]
  | .over s t => by rw [Product.seq, Product.toks, app_tk, power_tk t, product_tk s]
theorem power_tk : ∀ s : Power, s.seq.tk = s.toks
  | .one t => by rw [Power.seq, Power.toks, Seq.tk, atom_tk t]
  | .raised s t => by rw [Power.seq, Power.toks, app_tk, Seq.tk, atom_tk t, power_tk s]
theorem atom_tk : ∀ a : Atom, a.opd.tk = a.toks
  | .num x => by rw [Atom.opd, Atom.toks, Opd.tk]
  | .bracket s => by rw [Atom.opd, Atom.toks, Opd.tk, sum_tk s]; rfl
  | .func k s => by rw [Atom.opd, Atom.toks, Opd.tk, sum_tk s]; rfl
  | .neg a => by rw [Atom.opd, Atom.toks, Opd.tk, Seq.tk, atom_tk a]; rfl
  | .pos a => by rw [Atom.opd, Atom.toks, Opd.tk, Seq.tk, atom_tk a]; rfl
end

/-- What comes after the operators of a power, of a product. -/
def NotPow (l : List (Op × Rat)) : Prop := ∀ p ∈ l.head?, p.1 ≠ .pow
def NotMul (l : List (Op × Rat)) : Prop := ∀ p ∈ l.head?, p.1 = .add ∨ p.1 = .sub

theorem NotMul.notPow {l : List (Op × Rat)} (h : NotMul l) : NotPow l := by
  intro p hp
  rcases h p hp with h | h <;> simp [h]

theorem app_bind (L : Lib) (a : Seq) (o : Op) (b : Seq) (l : List (Op × Rat)) (s : Rat → Rat) (m : Rat → Option Rat) :
    ((a.app o b).flat L).bind (fun q => ev L s m q.1 (q.2 ++ l)) =
      (b.flat L).bind fun r => (a.flat L).bind fun q => ev L s m q.1 (q.2 ++ (o, r.1) :: (r.2 ++ l)) := by
  rw [app_flat]
  cases a.flat L <;> cases b.flat L <;> simp

mutual
theorem sum_val (L : Lib) : ∀ (e : Sum) (l : List (Op × Rat)), NotMul l →
    (e.seq.flat L).bind (fun q => ev L id some q.1 (q.2 ++ l)) = (e.val L).bind fun z => ev L id some z l
  | .one t, l, h => by rw [Sum.seq, Sum.val]; exact product_val L t l h.notPow id
  | .plus e t, l, h => by
    rw [Sum.seq, app_bind]
    simp only [sum_val L e _ (show NotMul ((Op.add, _) :: _) by simp [NotMul])]
    rw [Option.bind_comm]
    simp only [ev, Option.bind_some, product_val L t l h.notPow]
    rw [Sum.val]
    cases e.val L with
    | none => simp
    | some x => cases t.val L with
      | none => simp
      | some y => simpa using ev_head_sum L _ _ _ _ l h (by simp)
  | .minus e t, l, h => by
    rw [Sum.seq, app_bind]
    simp only [sum_val L e _ (show NotMul ((Op.sub, _) :: _) by simp [NotMul])]
    rw [Option.bind_comm]
    simp only [ev, Option.bind_some, product_val L t l h.notPow]
    rw [Sum.val]
    cases e.val L with
    | none => simp
    | some x => cases t.val L with
      | none => simp
      | some y => simpa using ev_head_sum L _ _ _ _ l h (by simp)
theorem product_val (L : Lib) : ∀ (e : Product) (l : List (Op × Rat)), NotPow l → ∀ s : Rat → Rat,
    (e.seq.flat L).bind (fun q => ev L s some q.1 (q.2 ++ l)) = (e.val L).bind fun z => ev L s some z l
  | .one t, l, h, s => by rw [Product.seq, Product.val]; exact power_val L t l s some
  | .times e t, l, h, s => by
    rw [Product.seq, app_bind]
    simp only [product_val L e _ (show NotPow ((Op.mul, _) :: _) by simp [NotPow]) s]
    rw [Option.bind_comm]
    simp only [ev, Option.bind_some, power_val L t l]
    rw [Product.val]
    cases e.val L with
    | none => simp
    | some x => cases t.val L with
      | none => simp
      | some y => simpa using ev_head L s _ _ _ _ l h (by simp)
  | .over e t, l, h, s => by
    rw [Product.seq, app_bind]
    simp only [product_val L e _ (show NotPow ((Op.div, _) :: _) by simp [NotPow]) s]
    rw [Option.bind_comm]
    simp only [ev, Option.bind_some, power_val L t l]
    rw [Product.val]
    cases e.val L with
    | none => simp
    | some x => cases t.val L with
      | none => simp
      | some y =>
        simp only [Option.bind_some, Option.bind_eq_bind]
        by_cases hy : y = 0
        · rw [if_pos hy, ev_none L s _ y l h (by simp [operate, hy])]; rfl
        · rw [if_neg hy, Option.bind_some]
          exact ev_head L s _ _ _ _ l h (by simp [operate, hy])
theorem power_val (L : Lib) : ∀ (e : Power) (l : List (Op × Rat)) (s : Rat → Rat) (m : Rat → Option Rat),
    (e.seq.flat L).bind (fun q => ev L s m q.1 (q.2 ++ l)) = (e.val L).bind fun z => ev L s m z l
  | .one a, l, s, m => by
    rw [Power.seq, Power.val, Seq.flat, atom_val L a]
    cases a.val L <;> simp
  | .raised e a, l, s, m => by
    rw [Power.seq, app_bind]
    simp only [power_val L e]
    rw [Option.bind_comm, Power.val, Seq.flat, atom_val L a]
    cases e.val L with
    | none => simp
    | some x => cases a.val L with
      | none => simp
      | some y =>
        simp only [Option.bind_some, Option.bind_eq_bind, Option.map_some, ev, operate, List.nil_append]
theorem atom_val (L : Lib) : ∀ a : Atom, a.opd.v L = a.val L
  | .num x => by rw [Atom.opd, Atom.val, Opd.v]
  | .bracket e => by
    have h := sum_val L e [] (by simp [NotMul])
    simp only [List.append_nil] at h
    rw [Atom.opd, Atom.val, Opd.v]
    have h' : (e.seq.flat L).bind (evFlat L) = e.val L := by rw [show evFlat L = fun q => ev L id some q.1 q.2 from rfl, h]; cases e.val L <;> simp [ev]
    rw [h']
    cases e.val L <;> simp [grpVal]
  | .func k e => by
    have h := sum_val L e [] (by simp [NotMul])
    simp only [List.append_nil] at h
    rw [Atom.opd, Atom.val, Opd.v]
    have h' : (e.seq.flat L).bind (evFlat L) = e.val L := by rw [show evFlat L = fun q => ev L id some q.1 q.2 from rfl, h]; cases e.val L <;> simp [ev]
    rw [h']
    cases e.val L with
    | none => simp
    | some x =>
      simp only [Option.bind_some, Option.bind_eq_bind, grpVal, funcEval]
      have hk := k.2
      rw [if_neg (show ¬ (k : Nat) + 1 = 15 by omega), if_neg (show ¬ (k : Nat) + 1 = 16 by omega)]
      by_cases h0 : k = 0
      · subst h0; simp
      · have : (k : Nat) ≠ 0 := fun h => h0 (Fin.ext h)
        rw [if_neg h0, if_neg (by omega)]
  | .neg a => by
    rw [Atom.opd, Atom.val, Opd.v, Seq.flat, atom_val L a]
    cases a.val L <;> simp [evFlat, ev, grpVal, funcEval]
  | .pos a => by
    rw [Atom.opd, Atom.val, Opd.v, Seq.flat, atom_val L a]
    cases a.val L <;> simp [evFlat, ev, grpVal, funcEval]
end

/-- EVALUATE gives the value of the sum. -/
theorem evaluate_sum (L : Lib) (e : Sum) (n : Nat) (h : e.toks.length ≤ n + 1) : evaluate L n e.toks = e.val L := by
  rw [← sum_tk] at h ⊢
  rw [evaluate_tk L n e.seq h, Seq.v]
  have h := sum_val L e [] (by simp [NotMul])
  simp only [List.append_nil] at h
  rw [show evFlat L = fun q => ev L id some q.1 q.2 from rfl, h]
  cases e.val L <;> simp [ev]

end Verif.TspEq
