import Verif.Lemmas.Equation
import Mathlib.Tactic.Positivity
import Mathlib.Algebra.Order.Field.Rat
/-
Lemmas on whole equations: parsing and checking.
-/
namespace Verif.Formula
open Verif.CText
open Verif.DataLine (Dec)

/-! ### Legal characters -/

theorem capital_legit : ∀ c ∈ capitals, isLegit c = true := by decide
theorem small_legit : ∀ c ∈ smalls, isLegit c = true := by decide
theorem digit_legit : ∀ c ∈ digits, isLegit c = true := by decide

theorem tail_legit {c : Char} (h : c ∈ smalls ∨ c = '_') : isLegit c = true := by
  rcases h with h | rfl
  · exact small_legit c h
  · decide

theorem inner_legit {c : Char} (h : Inner c) : isLegit c = true := by
  rcases h with h | h | h | h
  · exact capital_legit c h
  · exact small_legit c h
  · exact digit_legit c h
  · revert h c; decide

theorem num_legit {o : Option Dec} (h : NumOk o) : ∀ c ∈ numText o, isLegit c = true := by
  intro c hc
  rcases numText_chars h c hc with h | rfl
  · exact digit_legit c h
  · decide

theorem name_legit {n : Name} (h : n.Ok) : ∀ c ∈ n.text, isLegit c = true := by
  intro c hc
  cases n with
  | plain a t =>
    simp only [Name.text, List.mem_cons] at hc
    rcases hc with rfl | hc
    · exact capital_legit _ h.1
    · exact tail_legit (h.2 c hc)
  | bracketed i t =>
    simp only [Name.text, List.cons_append, List.mem_cons, List.mem_append] at hc
    rcases hc with rfl | hc | rfl | hc
    · decide
    · exact inner_legit (h.2.1 c hc)
    · decide
    · exact tail_legit (h.2.2 c hc)

theorem form_legit : ∀ {f : Form}, f.Ok → ∀ c ∈ f.text, isLegit c = true
  | .nil, _, c, hc => by simp [Form.text] at hc
  | .elem n d r, h, c, hc => by
    simp only [Form.text, List.mem_append] at hc
    rcases hc with (hc | hc) | hc
    · exact name_legit h.1 c hc
    · exact num_legit h.2.1 c hc
    · exact form_legit h.2.2 c hc
  | .group b d r, h, c, hc => by
    simp only [Form.text, List.mem_cons, List.mem_append] at hc
    rcases hc with ((rfl | hc) | rfl | hc) | hc
    · decide
    · exact form_legit h.1 c hc
    · decide
    · exact num_legit h.2.1 c hc
    · exact form_legit h.2.2 c hc

theorem parts_legit : ∀ {l : List (Option Dec × Form)}, (∀ q ∈ l, NumOk q.1 ∧ q.2.Ok) → ∀ c ∈ partsText l, isLegit c = true
  | [], _, c, hc => by simp [partsText] at hc
  | (d, f) :: l, h, c, hc => by
    obtain ⟨h1, h2⟩ := h (d, f) (by simp)
    simp only [partsText, List.cons_append, List.mem_cons, List.mem_append] at hc
    rcases hc with rfl | (hc | hc) | hc
    · decide
    · exact num_legit h1 c hc
    · exact form_legit h2 c hc
    · exact parts_legit (fun q hq => h q (List.mem_cons_of_mem _ hq)) c hc

theorem body_legit {b : Body} (h : b.Ok) : ∀ c ∈ b.text, isLegit c = true := by
  intro c hc
  cases b with
  | electron => simp only [Body.text, List.mem_singleton] at hc; subst hc; decide
  | compound q m =>
    obtain ⟨⟨-, h1, h2⟩, hm⟩ := h
    simp only [Body.text, Compound.text, List.mem_append] at hc
    rcases hc with (hc | hc) | hc
    · exact form_legit h1 c hc
    · exact parts_legit h2 c hc
    · have : ∀ m ∈ [] :: markers, ∀ c ∈ m, isLegit c = true := by decide
      exact this m (List.mem_cons.2 hm) c hc

theorem charge_legit {z : Charge} (h : z.Ok) : ∀ c ∈ z.text, isLegit c = true := by
  intro c hc
  rcases charge_chars h c hc with rfl | rfl | rfl | h
  · decide
  · decide
  · decide
  · exact digit_legit c h

theorem side_legit {l : List Species} (hf : ∀ s ∈ l, s.Fit) (hs : ∀ s ∈ l, s.sign = [] ∨ s.sign = ['+'] ∨ s.sign = ['-']) :
    ∀ c ∈ sideText l, isLegit c = true := by
  intro c hc
  simp only [sideText, List.mem_flatMap] at hc
  obtain ⟨s, hsl, hc⟩ := hc
  obtain ⟨h1, h2, h3⟩ := hf s hsl
  simp only [Species.text, List.mem_append] at hc
  rcases hc with ((hc | hc) | hc) | hc
  · rcases hs s hsl with h | h | h <;> rw [h] at hc <;> simp at hc <;> subst hc <;> decide
  · exact num_legit h1 c hc
  · exact body_legit h3 c hc
  · exact charge_legit h2 c hc

theorem side_signs {l : List Species} (h : SideOk l) : ∀ s ∈ l, s.sign = [] ∨ s.sign = ['+'] ∨ s.sign = ['-'] := by
  cases l with
  | nil => intro s hs; simp at hs
  | cons a l =>
    intro s hs
    rcases List.mem_cons.1 hs with rfl | hs
    · exact h.1
    · exact .inr (h.2 s hs)

theorem side_tail {s : Species} {l : List Species} (h : SideOk (s :: l)) : SideOk l := by
  cases l with
  | nil => exact trivial
  | cons t l => exact ⟨.inr (h.2 t (by simp)), fun x hx => h.2 x (List.mem_cons_of_mem _ hx)⟩

/-! ### Markers -/

theorem removeFirst_none : ∀ {pat s : List Char}, ¬ pat <:+: s → removeFirst pat s = s
  | _, [], _ => rfl
  | pat, c :: u, h => by
    rw [removeFirst, if_neg, removeFirst_none]
    · intro h'; exact h (h'.trans (List.suffix_cons c u).isInfix)
    · intro h'; exact h (List.isPrefixOf_iff_prefix.1 h').isInfix

theorem hasSub_false : ∀ {pat s : List Char}, pat ≠ [] → ¬ pat <:+: s → hasSub pat s = false
  | pat, [], h0, _ => by simpa [hasSub] using h0
  | pat, c :: u, h0, h => by
    rw [hasSub, hasSub_false h0]
    · simp only [Bool.or_false]
      by_contra h'
      exact h (List.isPrefixOf_iff_prefix.1 (by simpa using h')).isInfix
    · intro h'; exact h (h'.trans (List.suffix_cons c u).isInfix)

/-- A pattern that ends in `)` is not made by appending a text without `)`. -/
theorem infix_append {m a b : List Char} (hb : ')' ∉ b) (h : m ++ [')'] <:+: a ++ b) : m ++ [')'] <:+: a := by
  obtain ⟨s, t, h⟩ := h
  rw [List.append_assoc, List.append_eq_append_iff] at h
  rcases h with ⟨y, h1, h2⟩ | ⟨y, h1, h2⟩
  · -- a = s ++ y, m ++ [')'] ++ t = y ++ b
    rw [List.append_eq_append_iff] at h2
    rcases h2 with ⟨z, h3, h4⟩ | ⟨z, h3, h4⟩
    · exact ⟨s, z, by rw [h1, h3]; simp⟩
    · -- m ++ [')'] = y ++ z, b = z ++ t
      rcases List.eq_nil_or_concat z with rfl | ⟨z', x, rfl⟩
      · exact ⟨s, [], by rw [h1, h3]; simp⟩
      · have : x = ')' := by
          have := congrArg List.getLast? h3
          simpa using this.symm
        subst this
        exact absurd (by rw [h4]; simp) hb
  · -- s = a ++ y, b = y ++ (m ++ [')'] ++ t)
    exact absurd (by rw [h2]; simp) hb

theorem charge_paren {z : Charge} (h : z.Ok) : ')' ∉ z.text := by
  intro hc
  rcases charge_chars h _ hc with h | h | h | h
  · simp at h
  · simp at h
  · simp at h
  · revert h; decide

theorem marker_shape : ∀ m ∈ markers, ∃ x, m = ['(', x] ++ [')'] ∧ x ≠ '(' ∧ x ≠ ')' := by
  intro m hm
  simp only [markers, List.mem_cons, List.not_mem_nil, or_false] at hm
  rcases hm with rfl | rfl | rfl | rfl
  · exact ⟨'s', rfl, by decide, by decide⟩
  · exact ⟨'S', rfl, by decide, by decide⟩
  · exact ⟨'g', rfl, by decide, by decide⟩
  · exact ⟨'G', rfl, by decide, by decide⟩

theorem unmarked_append {a b : List Char} (h : Unmarked a) (hb : ')' ∉ b) : Unmarked (a ++ b) := by
  intro m hm hi
  obtain ⟨x, rfl, -⟩ := marker_shape m hm
  exact h _ hm (infix_append hb hi)

theorem strip_unmarked {s : List Char} (h : Unmarked s) : strip s = s := by
  unfold strip
  rw [removeFirst_none (h _ (by decide)), removeFirst_none (h _ (by decide)), removeFirst_none (h _ (by decide)),
    removeFirst_none (h _ (by decide))]

/-- Another marker at the end is no occurrence of `m`. -/
theorem infix_marker {m k a : List Char} (hm : m ∈ markers) (hk : k ∈ markers) (h : m <:+: a ++ k) :
    m <:+: a ∨ m = k := by
  obtain ⟨x, rfl, hx1, hx2⟩ := marker_shape m hm
  obtain ⟨y, rfl, hy1, hy2⟩ := marker_shape k hk
  obtain ⟨s, t, h⟩ := h
  have cut : ∀ {l1 l2 : List Char} {a b : Char}, l1 ++ [a] = l2 ++ [b] → l1 = l2 ∧ a = b := by
    intro l1 l2 a b h
    have := List.append_inj' h rfl
    simpa using this
  rcases List.eq_nil_or_concat t with rfl | ⟨t1, c1, rfl⟩
  · right
    rw [List.append_nil] at h
    exact (List.append_inj' h (by simp)).2
  · obtain ⟨h1, -⟩ := cut (l1 := s ++ ['(', x, ')'] ++ t1) (l2 := a ++ ['(', y]) (by simpa using h)
    rcases List.eq_nil_or_concat t1 with rfl | ⟨t2, c2, rfl⟩
    · obtain ⟨-, h2⟩ := cut (l1 := s ++ ['(', x]) (l2 := a ++ ['(']) (by simpa using h1)
      exact absurd h2.symm hy2
    · obtain ⟨h2, -⟩ := cut (l1 := s ++ ['(', x, ')'] ++ t2) (l2 := a ++ ['(']) (by simpa using h1)
      rcases List.eq_nil_or_concat t2 with rfl | ⟨t3, c3, rfl⟩
      · obtain ⟨-, h3⟩ := cut (l1 := s ++ ['(', x]) (l2 := a) (by simpa using h2)
        simp at h3
      · obtain ⟨h3, -⟩ := cut (l1 := s ++ ['(', x, ')'] ++ t3) (l2 := a) (by simpa using h2)
        left
        exact ⟨s, t3, by simpa using h3⟩

theorem removeFirst_end {m : List Char} (hm : m ∈ markers) : ∀ {a : List Char}, ¬ m <:+: a → removeFirst m (a ++ m) = a := by
  intro a
  induction a with
  | nil =>
    intro _
    obtain ⟨x, rfl, -⟩ := marker_shape m hm
    simp [removeFirst]
  | cons c u ih =>
    intro h
    rw [List.cons_append, removeFirst, if_neg, ih]
    · intro h'; exact h (h'.trans (List.suffix_cons c u).isInfix)
    · intro h'
      have hp := List.isPrefixOf_iff_prefix.1 h'
      obtain ⟨x, rfl, hx1, hx2⟩ := marker_shape m hm
      match u, h, hp with
      | [], _, hp => simp at hp; obtain ⟨-, h, -⟩ := hp; exact hx1 h
      | [d], _, hp => simp at hp
      | d :: e :: v, h, hp =>
        apply h
        simp at hp ⊢
        obtain ⟨rfl, rfl, rfl⟩ := hp
        exact ⟨[], v, by simp⟩

theorem strip_marked {a m : List Char} (hm : m ∈ markers) (h : Unmarked a) : strip (a ++ m) = a := by
  have key : ∀ k ∈ markers, k ≠ m → removeFirst k (a ++ m) = a ++ m := by
    intro k hk hne
    apply removeFirst_none
    intro hi
    rcases infix_marker hk hm hi with h' | h'
    · exact h k hk h'
    · exact hne h'
  have self := removeFirst_end hm (h m hm)
  have fin : ∀ k ∈ markers, removeFirst k a = a := fun k hk => removeFirst_none (h k hk)
  unfold strip
  simp only [markers, List.mem_cons, List.not_mem_nil, or_false] at hm
  rcases hm with rfl | rfl | rfl | rfl
  · rw [self, fin _ (by decide), fin _ (by decide), fin _ (by decide)]
  · rw [key _ (by decide) (by decide), self, fin _ (by decide), fin _ (by decide)]
  · rw [key _ (by decide) (by decide), key _ (by decide) (by decide), self, fin _ (by decide)]
  · rw [key _ (by decide) (by decide), key _ (by decide) (by decide), key _ (by decide) (by decide), self]

/-! ### Elements of a species -/

/-- The elements of a body in the order in which they are stored. -/
def Body.elts (k : Rat) : Body → Elts
  | .electron => [(['e'], 1 * k)]
  | .compound c _ => c.elts k

/-- At most one part behind a colon. -/
def Body.Short : Body → Prop
  | .electron => True
  | .compound c _ => c.parts.length ≤ 1

theorem ok_short {s : Species} (h : s.Ok) : s.body.Short := by
  obtain ⟨-, -, h3⟩ := h
  cases hb : s.body with
  | electron => exact trivial
  | compound c m => rw [hb] at h3; exact h3.2.1

theorem total_body {b : Body} (h : b.Short) (x : List Char) (k : Rat) : total x (b.elts k) = k * b.count x := by
  cases b with
  | electron =>
    simp only [Body.elts, total_cons, total_nil, Body.count]
    by_cases hx : x = ['e']
    · subst hx; simp
    · rw [if_neg (Ne.symm hx), if_neg hx]; simp
  | compound c m => exact total_short h x k

theorem num_value_nonneg (n : Nat) (f : List Char) : (0 : Rat) ≤ n + (numeral f : Rat) / 10 ^ f.length := by positivity

theorem negative_text {z : Charge} (h : z.value < 0) : ∃ u, z.text = '-' :: u := by
  cases z with
  | zero => simp [Charge.value] at h
  | row neg n =>
    cases neg with
    | true => exact ⟨_, List.replicate_succ⟩
    | false =>
      simp only [Charge.value] at h
      have : (0 : Rat) ≤ n := by positivity
      simp at h; linarith
  | num neg n f =>
    cases neg with
    | true => exact ⟨_, rfl⟩
    | false =>
      simp only [Charge.value] at h
      have := num_value_nonneg n (f.getD [])
      simp at h
      linarith

theorem charge_stop (z : Charge) : Stop z.text := by
  rcases charge_cons z with ⟨h, -⟩ | ⟨c, u, h, hc⟩
  · exact .inl h
  · exact .inr ⟨c, u, h, hc⟩

theorem run_name {s : Species} (h : s.Ok) (k : Rat) : ∃ r, run 0 k s.name = .ok (s.body.elts k, r, 0) := by
  obtain ⟨-, h2, h3⟩ := h
  unfold Species.name
  cases hb : s.body with
  | electron =>
    rw [hb] at h3
    have h3 : s.charge.value < 0 := h3
    obtain ⟨u, hu⟩ := negative_text (z := s.charge.canon) (by rw [canon_value]; exact h3)
    refine ⟨'-' :: u, ?_⟩
    rw [hu]
    have he : getElt 'e' ('-' :: u) = .ok (['e'], '-' :: u) := by
      unfold getElt; rw [if_neg (by decide)]
      have h1 : isTail '-' = false := by decide
      simp [h1]
    have hn := getNum_num (o := none) (r := '-' :: u) trivial (follow_cons (by decide))
    simp only [numText, numValue, List.nil_append] at hn
    show run 0 k ('e' :: ('-' :: u)) = _
    rw [run_elem 0 k (.inr (.inl ⟨rfl, rfl⟩)), he]
    simp only [ok_bind]
    rw [hn]
    simp only [ok_bind]
    rw [run_stop (.inr rfl)]
    rfl
  | compound c m =>
    rw [hb] at h3
    obtain ⟨h4, -, rfl⟩ := h3
    refine ⟨s.charge.canon.text, ?_⟩
    simp only [Body.text, List.append_nil]
    exact run_compound k h4 (charge_stop _)

/-! ### Checking -/

/-- An entry of the list of species, from its coefficient and species. -/
def entry (e : Rat × Species) : Tok := ⟨e.2.name, e.1, e.2.charge.value⟩

theorem eltsOf_entries : ∀ {l : List (Rat × Species)}, (∀ e ∈ l, e.2.Ok) →
    eltsOf 0 (l.map entry) = .ok (l.flatMap fun e => e.2.body.elts e.1)
  | [], _ => rfl
  | e :: l, h => by
    obtain ⟨r, hr⟩ := run_name (h e (by simp)) e.1
    have ih := eltsOf_entries (fun x hx => h x (List.mem_cons_of_mem _ hx))
    have hr' : run 0 (entry e).coef (entry e).name = .ok (e.2.body.elts e.1, r, 0) := hr
    rw [List.map_cons, eltsOf, hr']
    simp only [ok_bind]
    rw [ih]
    simp

theorem total_entries (x : List Char) : ∀ {l : List (Rat × Species)}, (∀ e ∈ l, e.2.Ok) →
    total x (l.flatMap fun e => e.2.body.elts e.1) = (l.map fun e => e.1 * e.2.body.count x).sum
  | [], _ => rfl
  | e :: l, h => by
    rw [List.flatMap_cons, total_append, total_body (ok_short (h e (by simp))),
      total_entries x (fun y hy => h y (List.mem_cons_of_mem _ hy))]
    simp

theorem equal_iff (a b : Rat) : equal a b = true ↔ Near a b := by
  simp only [equal, TOL, Near]
  exact decide_eq_true_iff

theorem near_refl (a : Rat) : Near a a := by
  unfold Near; constructor <;> norm_num

theorem checkEqn_entries {e : Rat × Species} {l : List (Rat × Species)} (h : ∀ x ∈ e :: l, x.2.Ok) :
    ∃ b, checkEqn ((e :: l).map entry) = .ok b ∧
      (b = true ↔ Near e.1 (-1) ∧ Near ((e :: l).map fun e => e.1 * e.2.charge.value).sum 0 ∧
        ∀ x, x ≠ ['e'] → Near ((e :: l).map fun e => e.1 * e.2.body.count x).sum 0) := by
  have helts := eltsOf_entries h
  have htot := fun x => total_entries x h
  rw [List.map_cons] at helts ⊢
  unfold checkEqn
  simp only
  have hco : (entry e).coef = e.1 := rfl
  by_cases h1 : equal e.1 (-1) = true
  · rw [hco, if_pos h1, helts]
    simp only [ok_bind]
    refine ⟨_, rfl, ?_⟩
    rw [Bool.and_eq_true, equal_iff, List.all_eq_true]
    have hz : ((entry e :: l.map entry).map fun t => t.coef * t.z) = (e :: l).map fun e => e.1 * e.2.charge.value := by
      simp [entry]
    rw [hz]
    have hall := combine_all (P := fun x v => (equal v 0 || decide (x = ['e'])) = true) ((e :: l).flatMap fun e => e.2.body.elts e.1)
      (fun x => by rw [Bool.or_eq_true, equal_iff]; exact .inl (near_refl 0))
    rw [hall]
    constructor
    · rintro ⟨h2, h3⟩
      refine ⟨(equal_iff _ _).1 h1, h2, fun x hx => ?_⟩
      have := h3 x
      rw [htot, Bool.or_eq_true, equal_iff] at this
      exact this.resolve_right (by simpa using hx)
    · rintro ⟨-, h2, h3⟩
      refine ⟨h2, fun x => ?_⟩
      rw [htot, Bool.or_eq_true, equal_iff]
      by_cases hx : x = ['e']
      · right; simpa using hx
      · exact .inl (h3 x hx)
  · rw [hco, if_neg h1]
    refine ⟨false, rfl, ?_⟩
    rw [equal_iff] at h1
    simp [h1]

theorem insert_map {α β} (g : α → β) (key : β → List Char) (a : α) : ∀ l : List α,
    insert key (g a) (l.map g) = (insert (fun x => key (g x)) a l).map g
  | [] => rfl
  | b :: l => by
    rw [List.map_cons, insert, insert, insert_map g key a l]
    split <;> simp

theorem sortBy_map {α β} (g : α → β) (key : β → List Char) : ∀ l : List α,
    sortBy key (l.map g) = (sortBy (fun x => key (g x)) l).map g
  | [] => rfl
  | a :: l => by rw [List.map_cons, sortBy, sortBy, sortBy_map g key l, insert_map]

end Verif.Formula
