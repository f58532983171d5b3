import Verif.Model.Formula
import Verif.Spec.Formula
import Verif.Lemmas.CText
import Verif.Lemmas.DataLine
import Mathlib.Tactic.Linarith
import Mathlib.Tactic.Ring
/-
Lemmas on the elements of a formula.
-/
namespace Verif.Formula
open Verif.CText
open Verif.DataLine (Dec strtod strtod_word)

/-! ### Outcomes -/

theorem bind_congr {α β} {x : Res α} {f g : α → Res β} (h : ∀ a, x = .ok a → f a = g a) : x.bind f = x.bind g := by
  cases x <;> simp [Res.bind]
  exact h _ rfl

theorem bind_ne_fuel {α β} {x : Res α} {f : α → Res β} (hx : x ≠ .fuel) (h : ∀ a, x = .ok a → f a ≠ .fuel) :
    x.bind f ≠ .fuel := by
  cases x <;> simp [Res.bind] at *
  exact h

theorem bind_eq_ok {α β} {x : Res α} {f : α → Res β} {b : β} (h : x.bind f = .ok b) : ∃ a, x = .ok a ∧ f a = .ok b := by
  cases x <;> simp [Res.bind] at h
  exact ⟨_, rfl, h⟩

@[simp] theorem ok_bind {α β} (a : α) (f : α → Res β) : (Res.ok a).bind f = f a := rfl

theorem bind_assoc {α β γ} (x : Res α) (f : α → Res β) (g : β → Res γ) :
    (x.bind f).bind g = x.bind fun a => (f a).bind g := by
  cases x <;> rfl

/-! ### Lengths -/

theorem bracket_len : ∀ {u x v : List Char}, bracket u = some (x, v) → v.length < u.length
  | [], _, _, h => by simp [bracket] at h
  | c :: u, x, v, h => by
    rw [bracket] at h
    split at h
    · simp at h; obtain ⟨-, rfl⟩ := h; simp
    · cases hb : bracket u with
      | none => rw [hb] at h; simp at h
      | some q =>
        obtain ⟨y, w⟩ := q
        rw [hb] at h; simp at h
        obtain ⟨-, rfl⟩ := h
        have := bracket_len hb
        simp; omega

theorem dropWhile_len (p : Char → Bool) (u : List Char) : (u.dropWhile p).length ≤ u.length :=
  List.Sublist.length_le (List.dropWhile_sublist p)

theorem getElt_len {c : Char} {u : List Char} {e : List Char × List Char} (h : getElt c u = .ok e) :
    e.2.length ≤ u.length := by
  unfold getElt at h
  split at h
  · split at h
    · simp at h
    · rename_i b v
      split at h
      · simp only [Res.ok.injEq] at h; subst h; exact dropWhile_len _ _
      · split at h
        · simp at h
        · rename_i x w hb
          simp only [Res.ok.injEq] at h; subst h
          have h1 := bracket_len hb
          have h2 := dropWhile_len isTail w
          simp at h1 h2 ⊢; omega
  · simp only [Res.ok.injEq] at h; subst h; exact dropWhile_len _ _

theorem numSpan_len : ∀ (b : Bool) (s : List Char), (numSpan b s).2.length ≤ s.length
  | _, [] => by simp [numSpan]
  | b, c :: u => by
    rw [numSpan]
    have h1 := numSpan_len b u
    have h2 := numSpan_len true u
    split
    · simp; omega
    · split <;> simp
      omega

theorem getNum_len {s : List Char} {e : Rat × List Char} (h : getNum s = .ok e) : e.2.length ≤ s.length := by
  unfold getNum at h
  try simp only at h
  split at h
  · simp at h; subst h; simp
  · split at h
    · simp at h
    · simp only [Res.ok.injEq] at h; subst h; exact numSpan_len _ _

theorem getElt_ne_fuel (c : Char) (u : List Char) : getElt c u ≠ .fuel := by
  unfold getElt
  split
  · split
    · simp
    · split
      · simp
      · split <;> simp
  · simp

theorem getNum_ne_fuel (s : List Char) : getNum s ≠ .fuel := by
  unfold getNum
  try simp only
  split
  · simp
  · split <;> simp

theorem inSpecies_len : ∀ {n : Nat} {p : Int} {k : Rat} {s : List Char} {t : Elts × List Char × Int},
    inSpecies n p k s = .ok t → t.2.1.length ≤ s.length
  | 0, _, _, _, _, h => by simp [inSpecies] at h
  | n + 1, p, k, [], t, h => by
    rw [inSpecies] at h
    try simp only at h
    split at h
    · simp at h; subst h; simp
    · simp at h
  | n + 1, p, k, c :: u, t, h => by
    rw [inSpecies] at h
    try simp only at h
    split at h
    · split at h
      · simp at h; subst h; simp
      · simp at h
    · split at h
      · split at h
        · simp at h
        · simp at h; subst h; simp
      · split at h
        · obtain ⟨e, he, h⟩ := bind_eq_ok h
          obtain ⟨d, hd, h⟩ := bind_eq_ok h
          obtain ⟨t', ht, h⟩ := bind_eq_ok h
          simp only [Res.ok.injEq] at h; subst h
          have h1 := getElt_len he
          have h2 := getNum_len hd
          have h3 := inSpecies_len ht
          simp; omega
        · split at h
          · obtain ⟨g, hg, h⟩ := bind_eq_ok h
            obtain ⟨d, hd, h⟩ := bind_eq_ok h
            obtain ⟨t', ht, h⟩ := bind_eq_ok h
            simp only [Res.ok.injEq] at h; subst h
            have h1 := inSpecies_len hg
            have h2 := getNum_len hd
            have h3 := inSpecies_len ht
            simp; omega
          · split at h
            · obtain ⟨d, hd, h⟩ := bind_eq_ok h
              obtain ⟨g, hg, h⟩ := bind_eq_ok h
              obtain ⟨t', ht, h⟩ := bind_eq_ok h
              simp only [Res.ok.injEq] at h; subst h
              have h1 := inSpecies_len hg
              have h2 := getNum_len hd
              have h3 := inSpecies_len ht
              simp; omega
            · simp at h

/-- Enough steps: the result does not depend on the bound. -/
theorem inSpecies_enough : ∀ (L : Nat) (s : List Char), s.length ≤ L → ∀ (n m : Nat), s.length < n → s.length < m →
    ∀ (p : Int) (k : Rat), inSpecies n p k s = inSpecies m p k s ∧ inSpecies n p k s ≠ .fuel := by
  intro L
  induction L with
  | zero =>
    intro s hs n m hn hm p k
    have : s = [] := by simpa using hs
    subst this
    obtain ⟨n, rfl⟩ : ∃ j, n = j + 1 := ⟨n - 1, by omega⟩
    obtain ⟨m, rfl⟩ : ∃ j, m = j + 1 := ⟨m - 1, by omega⟩
    refine ⟨by rw [inSpecies, inSpecies], ?_⟩
    rw [inSpecies]; split <;> simp
  | succ L ih =>
    intro s hs n m hn hm p k
    obtain ⟨n, rfl⟩ : ∃ j, n = j + 1 := ⟨n - 1, by omega⟩
    obtain ⟨m, rfl⟩ : ∃ j, m = j + 1 := ⟨m - 1, by omega⟩
    cases s with
    | nil => exact ⟨by rw [inSpecies, inSpecies], by rw [inSpecies]; split <;> simp⟩
    | cons c u =>
      simp only [List.length_cons] at hs hn hm
      have key : ∀ v : List Char, v.length ≤ u.length → ∀ p k, inSpecies n p k v = inSpecies m p k v ∧
          inSpecies n p k v ≠ .fuel := fun v hv p k => ih v (by omega) n m (by omega) (by omega) p k
      refine ⟨?_, ?_⟩
      · rw [inSpecies, inSpecies]
        try simp only
        split
        · rfl
        split
        · rfl
        split
        · refine bind_congr fun e he => bind_congr fun d hd => ?_
          have h1 := getElt_len he
          have h2 := getNum_len hd
          rw [(key d.2 (by omega) p k).1]
        split
        · rw [(key u le_rfl (p + 1) k).1]
          refine bind_congr fun g hg => bind_congr fun d hd => ?_
          have h1 := inSpecies_len hg
          have h2 := getNum_len hd
          rw [(key d.2 (by omega) g.2.2 k).1]
        split
        · refine bind_congr fun d hd => ?_
          have h2 := getNum_len hd
          rw [(key d.2 (by omega) p k).1]
          refine bind_congr fun g hg => ?_
          have h1 := inSpecies_len hg
          rw [(key g.2.1 (by omega) g.2.2 k).1]
        · rfl
      · rw [inSpecies]
        try simp only
        split
        · split <;> simp
        split
        · split <;> simp
        split
        · refine bind_ne_fuel (getElt_ne_fuel _ _) fun e he => bind_ne_fuel (getNum_ne_fuel _) fun d hd => ?_
          have h1 := getElt_len he
          have h2 := getNum_len hd
          exact bind_ne_fuel (key d.2 (by omega) p k).2 fun t _ => by simp
        split
        · refine bind_ne_fuel (key u le_rfl (p + 1) k).2 fun g hg => bind_ne_fuel (getNum_ne_fuel _) fun d hd => ?_
          have h1 := inSpecies_len hg
          have h2 := getNum_len hd
          exact bind_ne_fuel (key d.2 (by omega) g.2.2 k).2 fun t _ => by simp
        split
        · refine bind_ne_fuel (getNum_ne_fuel _) fun d hd => ?_
          have h2 := getNum_len hd
          refine bind_ne_fuel (key d.2 (by omega) p k).2 fun g hg => ?_
          have h1 := inSpecies_len hg
          exact bind_ne_fuel (key g.2.1 (by omega) g.2.2 k).2 fun t _ => by simp
        · simp

theorem inSpecies_run {n : Nat} {s : List Char} (h : s.length < n) (p : Int) (k : Rat) :
    inSpecies n p k s = run p k s :=
  (inSpecies_enough s.length s le_rfl n (s.length + 1) h (by omega) p k).1

theorem run_ne_fuel (p : Int) (k : Rat) (s : List Char) : run p k s ≠ .fuel :=
  (inSpecies_enough s.length s le_rfl (s.length + 1) (s.length + 1) (by omega) (by omega) p k).2

/-! ### One step -/

theorem run_nil (k : Rat) : run 0 k [] = .ok ([], [], 0) := rfl

theorem run_stop {c : Char} (hc : c = '+' ∨ c = '-') (k : Rat) (u : List Char) : run 0 k (c :: u) = .ok ([], c :: u, 0) := by
  rw [run, List.length_cons, inSpecies]
  try simp only
  rw [if_pos hc]; rfl

theorem run_close {p : Int} (hp : 0 ≤ p) (k : Rat) (u : List Char) : run (p + 1) k (')' :: u) = .ok ([], u, p) := by
  rw [run, List.length_cons, inSpecies]
  try simp only
  rw [if_neg (by decide), if_pos trivial, if_neg (by omega)]
  simp

theorem run_elem {c : Char} {u : List Char} (p : Int) (k : Rat)
    (hc : isUpper c = true ∨ (c = 'e' ∧ u.head? = some '-') ∨ c = '[') :
    run p k (c :: u) = (getElt c u).bind fun e => (getNum e.2).bind fun d => (run p k d.2).bind fun t =>
      .ok ((e.1, d.1 * k) :: t.1, t.2) := by
  have h1 : ¬ (c = '+' ∨ c = '-') := by
    rcases hc with hc | ⟨rfl, -⟩ | rfl
    · rintro (rfl | rfl) <;> revert hc <;> decide
    · decide
    · decide
  have h2 : c ≠ ')' := by
    rcases hc with hc | ⟨rfl, -⟩ | rfl
    · rintro rfl; revert hc; decide
    · decide
    · decide
  rw [run, List.length_cons, inSpecies]
  rw [if_neg h1, if_neg h2, if_pos hc]
  refine bind_congr fun e he => bind_congr fun d hd => ?_
  have h1 := getElt_len he
  have h2 := getNum_len hd
  rw [inSpecies_run (by omega)]

theorem run_open (p : Int) (k : Rat) (u : List Char) :
    run p k ('(' :: u) = (run (p + 1) k u).bind fun g => (getNum g.2.1).bind fun d => (run g.2.2 k d.2).bind fun t =>
      .ok (scale d.1 g.1 ++ t.1, t.2) := by
  rw [run, List.length_cons, inSpecies]
  try simp only
  rw [if_neg (by decide), if_neg (by decide), if_neg (by simp; decide), if_pos trivial, inSpecies_run (by omega)]
  refine bind_congr fun g hg => bind_congr fun d hd => ?_
  have h1 := inSpecies_len hg
  have h2 := getNum_len hd
  rw [inSpecies_run (by omega)]

theorem run_colon (p : Int) (k : Rat) (u : List Char) :
    run p k (':' :: u) = (getNum u).bind fun d => (run p k d.2).bind fun g => (run g.2.2 k g.2.1).bind fun t =>
      .ok (scale d.1 g.1 ++ t.1, t.2) := by
  rw [run, List.length_cons, inSpecies]
  try simp only
  rw [if_neg (by decide), if_neg (by decide), if_neg (by simp; decide), if_neg (by decide), if_pos trivial]
  refine bind_congr fun d hd => ?_
  have h2 := getNum_len hd
  rw [inSpecies_run (by omega)]
  refine bind_congr fun g hg => ?_
  have h1 := inSpecies_len hg
  rw [inSpecies_run (by omega)]

/-! ### Characters -/

theorem capital_upper : ∀ c ∈ capitals, isUpper c = true := by decide

theorem small_lower : ∀ c ∈ smalls, isLower c = true := by decide

theorem capital_facts : ∀ c ∈ capitals, isDigit c = false ∧ c ≠ '.' ∧ isTail c = false ∧ c ≠ '[' ∧ c ≠ 'e' := by decide

theorem tail_isTail {c : Char} (h : c ∈ smalls ∨ c = '_') : isTail c = true := by
  rcases h with h | rfl
  · simp [isTail, small_lower c h]
  · decide

theorem digit_facts : ∀ c ∈ digits, isTail c = false ∧ isDigit c = true ∧ c ≠ '.' := by decide

theorem inner_ne {c : Char} (h : Inner c) : c ≠ ']' := by
  rcases h with h | h | h | h
  · revert h c; decide
  · revert h c; decide
  · revert h c; decide
  · revert h c; decide

/-! ### Numbers -/

/-- A text that does not continue a number or the name of an element. -/
def Follow (r : List Char) : Prop := ∀ c, r.head? = some c → isDigit c = false ∧ c ≠ '.' ∧ isTail c = false

theorem follow_nil : Follow [] := by intro c hc; simp at hc

theorem follow_cons {c : Char} {r : List Char} (h : isDigit c = false ∧ c ≠ '.' ∧ isTail c = false) : Follow (c :: r) := by
  intro d hd; simp at hd; subst hd; exact h

theorem numSpan_digits {b : Bool} : ∀ {ds r : List Char}, (∀ c ∈ ds, c ∈ digits) →
    numSpan b (ds ++ r) = (ds ++ (numSpan b r).1, (numSpan b r).2)
  | [], r, _ => by simp
  | c :: ds, r, h => by
    have h1 := (digit_facts c (h c (by simp))).2.1
    have ih := numSpan_digits (b := b) (r := r) (fun x hx => h x (List.mem_cons_of_mem _ hx))
    rw [List.cons_append, numSpan, if_pos h1, ih]
    simp

theorem numSpan_follow {b : Bool} {r : List Char} (h : Follow r) : numSpan b r = ([], r) := by
  cases r with
  | nil => rfl
  | cons c u =>
    obtain ⟨h1, h2, -⟩ := h c rfl
    rw [numSpan, if_neg (by simp [h1]), if_neg (by simp [h2])]

theorem num_text {d : Dec} (h : IsNum d) :
    d.text = d.ip ++ (match d.fp with | none => [] | some f => '.' :: f) := by
  obtain ⟨-, h1, h2, -⟩ := h
  simp only [Dec.text, h1, h2, List.nil_append, List.append_nil]
  cases d.fp <;> rfl

theorem numSpan_num {d : Dec} {r : List Char} (h : IsNum d) (hr : Follow r) : numSpan false (d.text ++ r) = (d.text, r) := by
  have ht := num_text h
  obtain ⟨⟨-, h1, h2, -⟩, -⟩ := h
  rw [ht, List.append_assoc, numSpan_digits h1]
  cases hf : d.fp with
  | none => simp [numSpan_follow hr]
  | some f =>
    rw [hf] at h2
    simp only [Option.getD_some] at h2
    simp only [List.cons_append]
    rw [numSpan, if_neg (by decide), if_pos ⟨rfl, rfl⟩, numSpan_digits h2, numSpan_follow hr]
    simp

theorem num_ne_nil {d : Dec} (h : IsNum d) : d.text ≠ [] := by
  have ht := num_text h
  obtain ⟨⟨-, -, -, h4, -⟩, -⟩ := h
  rw [ht]
  intro h0
  simp only [List.append_eq_nil_iff] at h0
  apply h4
  cases hf : d.fp with
  | none => simp [h0.1]
  | some f => rw [hf] at h0; simp at h0

theorem num_head {d : Dec} (h : IsNum d) : ∀ c, d.text.head? = some c → c ∈ digits ∨ c = '.' := by
  intro c hc
  have ht := num_text h
  obtain ⟨⟨-, h1, -⟩, -⟩ := h
  rw [ht] at hc
  cases hi : d.ip with
  | nil =>
    cases hf : d.fp with
    | none => rw [hi, hf] at hc; simp at hc
    | some f => rw [hi, hf] at hc; simp at hc; exact .inr hc.symm
  | cons a t => rw [hi] at hc; simp at hc; subst hc; exact .inl (h1 a (by simp [hi]))

theorem getNum_num {o : Option Dec} {r : List Char} (h : NumOk o) (hr : Follow r) :
    getNum (numText o ++ r) = .ok (numValue o, r) := by
  cases o with
  | none =>
    simp only [numText, numValue, List.nil_append]
    unfold getNum
    simp only [numSpan_follow hr]
    simp
  | some d =>
    have hd : IsNum d := h
    simp only [numText, numValue]
    unfold getNum
    simp only [numSpan_num hd hr]
    have hl := hd.2.2.2
    rw [if_neg (num_ne_nil hd), if_neg (by simp only [MAX_LENGTH]; omega)]
    have := strtod_word (b := []) (d := d) (r := []) (by intro c hc; simp at hc) hd.1 (.inl rfl)
    simp only [List.nil_append, List.append_nil] at this
    rw [this]

theorem numText_tail {o : Option Dec} {r : List Char} (h : NumOk o) (hr : Follow r) :
    ∀ c, (numText o ++ r).head? = some c → isTail c = false := by
  intro c hc
  cases o with
  | none => exact (hr c hc).2.2
  | some d =>
    have hne := num_ne_nil h
    simp only [numText] at hc
    cases ht : d.text with
    | nil => exact absurd ht hne
    | cons a t =>
      rw [ht] at hc
      simp at hc
      rcases num_head h c (by rw [ht]; simp [hc]) with h1 | h1
      · exact (digit_facts c h1).1
      · subst h1; decide

/-! ### Names of elements -/

theorem takeWhile_append' {p : Char → Bool} {t r : List Char} (h : ∀ c ∈ t, p c = true)
    (hr : ∀ c, r.head? = some c → p c = false) : (t ++ r).takeWhile p = t ∧ (t ++ r).dropWhile p = r := by
  induction t with
  | nil =>
    cases r with
    | nil => simp
    | cons c u => simp [hr c rfl]
  | cons a t ih =>
    have := ih (fun c hc => h c (List.mem_cons_of_mem _ hc))
    simp [h a (by simp), this]

theorem bracket_inner : ∀ {i r : List Char}, (∀ c ∈ i, c ≠ ']') → bracket (i ++ ']' :: r) = some (i ++ [']'], r)
  | [], r, _ => by simp [bracket]
  | c :: i, r, h => by
    have ih := bracket_inner (r := r) (fun x hx => h x (List.mem_cons_of_mem _ hx) : ∀ c ∈ i, c ≠ ']')
    rw [List.cons_append, bracket, if_neg (h c (by simp)), ih]
    simp

theorem name_cons {n : Name} (h : n.Ok) : ∃ c u, n.text = c :: u ∧ (isUpper c = true ∨ c = '[') ∧ isDigit c = false ∧ c ≠ '.' ∧
    isTail c = false ∧ c ≠ 'e' := by
  cases n with
  | plain c t =>
    obtain ⟨h1, h2, h3, -, h4⟩ := capital_facts c h.1
    exact ⟨c, t, rfl, .inl (capital_upper c h.1), h1, h2, h3, h4⟩
  | bracketed i t => exact ⟨'[', _, rfl, .inr rfl, by decide, by decide, by decide, by decide⟩

theorem getElt_name {n : Name} {c : Char} {u r : List Char} (h : n.Ok) (hc : n.text = c :: u)
    (hr : ∀ c, r.head? = some c → isTail c = false) : getElt c (u ++ r) = .ok (n.text, r) := by
  cases n with
  | plain c' t =>
    simp only [Name.text, List.cons.injEq] at hc
    obtain ⟨rfl, rfl⟩ := hc
    have h1 := (capital_facts c' h.1).2.2.2.1
    obtain ⟨h2, h3⟩ := takeWhile_append' (fun c hc => tail_isTail (h.2 c hc)) hr
    unfold getElt
    rw [if_neg h1, h2, h3]; rfl
  | bracketed i t =>
    simp only [Name.text, List.cons_append, List.cons.injEq] at hc
    obtain ⟨rfl, rfl⟩ := hc
    obtain ⟨h0, h1, h2⟩ := h
    obtain ⟨a, i', rfl⟩ : ∃ a i', i = a :: i' := by
      cases i with
      | nil => exact absurd rfl h0
      | cons a i' => exact ⟨a, i', rfl⟩
    have h3 : a ≠ ']' := inner_ne (h1 a (by simp))
    have h4 := bracket_inner (r := t ++ r) (fun x hx => inner_ne (h1 x hx))
    obtain ⟨h5, h6⟩ := takeWhile_append' (fun c hc => tail_isTail (h2 c hc)) hr
    have h7 : (a :: i' ++ ']' :: t) ++ r = a :: (i' ++ ']' :: (t ++ r)) := by simp
    have h8 : a :: (i' ++ ']' :: (t ++ r)) = a :: i' ++ ']' :: (t ++ r) := by simp
    rw [h7]
    unfold getElt
    rw [if_pos rfl]
    simp only
    rw [if_neg h3, h8, h4]
    simp only [h5, h6]
    simp [Name.text]

/-! ### Formulas -/

/-- The elements in the order in which they are stored. -/
def Form.elts (k : Rat) : Form → Elts
  | .nil => []
  | .elem n d r => (n.text, numValue d * k) :: r.elts k
  | .group b d r => scale (numValue d) (b.elts k) ++ r.elts k

theorem form_follow : ∀ {f : Form} {r : List Char}, f.Ok → Follow r → Follow (f.text ++ r)
  | .nil, r, _, hr => by simpa [Form.text] using hr
  | .elem n d f, r, h, hr => by
    obtain ⟨c, u, h1, -, h2, h3, h4, -⟩ := name_cons h.1
    simp only [Form.text, h1]
    exact follow_cons ⟨h2, h3, h4⟩
  | .group b d f, r, h, hr => by
    simp only [Form.text]
    exact follow_cons (by decide)

theorem run_form : ∀ {f : Form} {r : List Char} {p : Int} (k : Rat), f.Ok → Follow r → 0 ≤ p →
    run p k (f.text ++ r) = (run p k r).bind fun t => .ok (f.elts k ++ t.1, t.2)
  | .nil, r, p, k, _, _, _ => by
    simp only [Form.text, Form.elts, List.nil_append]
    cases run p k r <;> rfl
  | .elem n d f, r, p, k, h, hr, hp => by
    obtain ⟨h1, h2, h3⟩ := h
    obtain ⟨c, u, hc, hu, -⟩ := name_cons h1
    have hf := form_follow h3 hr
    have he := getElt_name h1 hc (numText_tail h2 hf)
    have htext : (Form.elem n d f).text ++ r = c :: (u ++ (numText d ++ (f.text ++ r))) := by
      simp [Form.text, hc]
    rw [htext, run_elem p k (hu.elim .inl (fun h => .inr (.inr h))), he]
    simp only [ok_bind]
    rw [getNum_num h2 hf]
    simp only [ok_bind]
    rw [run_form k h3 hr hp, bind_assoc]
    simp [Form.elts]
  | .group b d f, r, p, k, h, hr, hp => by
    obtain ⟨h1, h2, h3⟩ := h
    have hf := form_follow h3 hr
    have htext : (Form.group b d f).text ++ r = '(' :: (b.text ++ ')' :: (numText d ++ (f.text ++ r))) := by
      simp [Form.text]
    rw [htext, run_open, run_form k h1 (follow_cons (by decide)) (by omega), run_close hp]
    simp only [ok_bind, List.append_nil]
    rw [getNum_num h2 hf]
    simp only [ok_bind]
    rw [run_form k h3 hr hp, bind_assoc]
    simp [Form.elts]

/-- The elements behind colons in the order in which they are stored. -/
def partsElts (k : Rat) : List (Option Dec × Form) → Elts
  | [] => []
  | (d, f) :: r => scale (numValue d) (f.elts k ++ partsElts k r)

/-- A text at which a formula ends. -/
def Stop (r : List Char) : Prop := r = [] ∨ ∃ c u, r = c :: u ∧ (c = '+' ∨ c = '-')

theorem stop_run {r : List Char} (h : Stop r) (k : Rat) : run 0 k r = .ok ([], r, 0) := by
  rcases h with rfl | ⟨c, u, rfl, hc⟩
  · exact run_nil k
  · exact run_stop hc k u

theorem stop_follow {r : List Char} (h : Stop r) : Follow r := by
  rcases h with rfl | ⟨c, u, rfl, rfl | rfl⟩
  · exact follow_nil
  · exact follow_cons (by decide)
  · exact follow_cons (by decide)

theorem parts_follow {l : List (Option Dec × Form)} {r : List Char} (hr : Follow r) : Follow (partsText l ++ r) := by
  cases l with
  | nil => simpa [partsText] using hr
  | cons q l => obtain ⟨d, f⟩ := q; simp only [partsText]; exact follow_cons (by decide)

theorem run_parts : ∀ {l : List (Option Dec × Form)} {r : List Char} (k : Rat), (∀ q ∈ l, NumOk q.1 ∧ q.2.Ok) → Stop r →
    run 0 k (partsText l ++ r) = .ok (partsElts k l, r, 0)
  | [], r, k, _, hr => by simp [partsText, partsElts, stop_run hr]
  | (d, f) :: l, r, k, h, hr => by
    obtain ⟨h1, h2⟩ := h (d, f) (by simp)
    have ih := run_parts k (fun q hq => h q (List.mem_cons_of_mem _ hq)) hr
    have hf : Follow (partsText l ++ r) := parts_follow (stop_follow hr)
    have htext : partsText ((d, f) :: l) ++ r = ':' :: (numText d ++ (f.text ++ (partsText l ++ r))) := by
      simp [partsText]
    rw [htext, run_colon, getNum_num h1 (form_follow h2 hf)]
    simp only [ok_bind]
    rw [run_form k h2 hf le_rfl, ih]
    simp only [ok_bind]
    rw [stop_run hr]
    simp [partsElts]

/-- The elements of a compound. -/
def Compound.elts (k : Rat) (c : Compound) : Elts := c.main.elts k ++ partsElts k c.parts

theorem run_compound {c : Compound} {r : List Char} (k : Rat) (h : c.Ok) (hr : Stop r) :
    run 0 k (c.text ++ r) = .ok (c.elts k, r, 0) := by
  obtain ⟨-, h1, h2⟩ := h
  rw [Compound.text, List.append_assoc, run_form k h1 (parts_follow (stop_follow hr)) le_rfl, run_parts k h2 hr]
  rfl

/-! ### Totals -/

@[simp] theorem total_nil (x : List Char) : total x [] = 0 := rfl

theorem total_cons (x : List Char) (e : List Char × Rat) (l : Elts) :
    total x (e :: l) = (if e.1 = x then e.2 else 0) + total x l := by
  by_cases h : e.1 = x <;> simp [total, h]

theorem total_append (x : List Char) (a b : Elts) : total x (a ++ b) = total x a + total x b := by
  simp [total]

theorem total_scale (x : List Char) (d : Rat) : ∀ (l : Elts), total x (scale d l) = d * total x l
  | [] => by simp [scale]
  | e :: l => by
    have ih := total_scale x d l
    simp only [scale, List.map_cons] at ih ⊢
    rw [total_cons, total_cons, ih]
    by_cases h : e.1 = x <;> simp [h] <;> ring

theorem total_form (x : List Char) (k : Rat) : ∀ f : Form, total x (f.elts k) = k * f.count x
  | .nil => by simp [Form.elts, Form.count]
  | .elem n d r => by
    rw [Form.elts, total_cons, total_form x k r, Form.count]
    by_cases h : n.text = x <;> simp [h] <;> ring
  | .group b d r => by
    rw [Form.elts, total_append, total_scale, total_form x k b, total_form x k r, Form.count]
    ring

/-- What the parser makes of several parts behind colons: every factor applies to all that follows. -/
def nested (x : List Char) : List (Option Dec × Form) → Rat
  | [] => 0
  | (d, f) :: r => numValue d * (f.count x + nested x r)

theorem total_parts (x : List Char) (k : Rat) : ∀ l, total x (partsElts k l) = k * nested x l
  | [] => by simp [partsElts, nested]
  | (d, f) :: l => by
    rw [partsElts, total_scale, total_append, total_form, total_parts x k l, nested]; ring

theorem total_compound (x : List Char) (k : Rat) (c : Compound) :
    total x (c.elts k) = k * (c.main.count x + nested x c.parts) := by
  rw [Compound.elts, total_append, total_form, total_parts]; ring

theorem nested_short {l : List (Option Dec × Form)} (h : l.length ≤ 1) (x : List Char) :
    nested x l = (l.map fun q => numValue q.1 * q.2.count x).sum := by
  match l, h with
  | [], _ => rfl
  | [(d, f)], _ => simp [nested]

theorem total_short {c : Compound} (h : c.parts.length ≤ 1) (x : List Char) (k : Rat) :
    total x (c.elts k) = k * c.count x := by
  rw [total_compound, nested_short h]; rfl

end Verif.Formula
