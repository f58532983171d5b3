import Verif.Spec.StorageBinList
import Verif.Lemmas.CText
import Mathlib.Tactic.SplitIfs
/-
Lemmas about number lists.
-/
namespace Verif.Sbl
open Verif.CText

theorem numeral_eq_readDigits {n : Nat} {r : Text} (hr : ∀ c, r.head? = some c → isDigit c = false) :
    readDigits 0 (decimal n ++ r) = (n, r) := by
  rw [readDigits_append (decimal_digits n) 0 hr, numeral_decimal]; simp

/-- A number at the front of the text, possibly after blanks, is read. -/
theorem readInt_intText {i : Int} (h1 : -2147483648 ≤ i) (h2 : i ≤ intMax) {r : Text}
    (hr : ∀ c, r.head? = some c → isDigit c = false) : readInt (intText i ++ r) = some (i, r) := by
  obtain ⟨d, ds, hd⟩ : ∃ d ds, decimal i.natAbs = d :: ds := by
    cases h : decimal i.natAbs with
    | nil => exact absurd h (decimal_ne_nil _)
    | cons d ds => exact ⟨d, ds, rfl⟩
  have hdig : isDigit d = true := decimal_digits i.natAbs d (by rw [hd]; simp)
  have hrd := numeral_eq_readDigits (n := i.natAbs) hr
  rw [hd] at hrd
  have hsp := digit_not_space hdig
  have hne := digit_ne_sign hdig
  unfold intText
  split
  · rename_i hneg
    have e1 : (('-' :: decimal i.natAbs) ++ r).dropWhile isSpace = '-' :: (d :: ds ++ r) := by
      rw [hd]; simp [isSpace]
    unfold readInt
    rw [e1]
    simp only [readSign, List.cons_append, hdig, if_true]
    simp only [List.cons_append] at hrd
    rw [hrd]
    simp only [if_true]
    have : -((i.natAbs : Nat) : Int) = i := by omega
    rw [this, if_pos ⟨h1, h2⟩]
  · rename_i hneg
    have e1 : (decimal i.natAbs ++ r).dropWhile isSpace = d :: ds ++ r := by
      rw [hd]; simp [hsp]
    have e2 : readSign (d :: ds ++ r) = (false, d :: ds ++ r) := by
      simp only [List.cons_append]
      unfold readSign
      split
      · rename_i h; simp at h; exact absurd h.1 hne.1
      · rename_i h; simp at h; exact absurd h.1 hne.2
      · rfl
    unfold readInt
    rw [e1, e2]
    simp only [List.cons_append, hdig, if_true]
    simp only [List.cons_append] at hrd
    rw [hrd]
    have : ((i.natAbs : Nat) : Int) = i := by omega
    simp only [Bool.false_eq_true, if_false]
    rw [this, if_pos ⟨h1, h2⟩]

theorem readInt_blank (s : Text) : readInt (' ' :: s) = readInt s := by
  have : (' ' :: s).dropWhile isSpace = s.dropWhile isSpace := by
    rw [List.dropWhile_cons]; simp [isSpace]
  unfold readInt; rw [this]

theorem readInt_nil : readInt [] = none := rfl

/-- No `--` in a text without `-`, except possibly where the rest begins. -/
theorem fixDD_digits {ds : Text} (h : ∀ c ∈ ds, isDigit c = true) (s : Text) :
    fixDD (ds ++ s) = ds ++ fixDD s := by
  induction ds with
  | nil => rfl
  | cons c ds ih =>
    have hc := (digit_ne_sign (h c (by simp))).1
    have := ih fun d hd => h d (List.mem_cons_of_mem _ hd)
    simp only [List.cons_append]
    rw [fixDD]
    · rw [this]
    · intro r hr
      exact absurd hr hc

theorem fixDD_dash_digits {ds : Text} (h0 : ds ≠ []) (h : ∀ c ∈ ds, isDigit c = true) (s : Text) :
    fixDD ('-' :: (ds ++ s)) = '-' :: (ds ++ fixDD s) := by
  cases ds with
  | nil => exact absurd rfl h0
  | cons c ds =>
    have hc := (digit_ne_sign (h c (by simp))).1
    rw [fixDD]
    · rw [fixDD_digits h]
    · intro r _ hr
      simp only [List.cons_append, List.cons.injEq] at hr
      exact absurd hr.1 hc

/-- The two replacements of a character. -/
def sub (d : Char) : Char := if (if d = '-' then ' ' else d) = '&' then '-' else (if d = '-' then ' ' else d)

theorem fixTail_cons (c : Char) (r : Text) : fixTail (c :: r) = c :: r.map sub := by
  simp [fixTail, sub, Function.comp_def]

theorem digit_ne_amp {c : Char} (h : isDigit c = true) : c ≠ '&' := by
  rintro rfl; exact absurd h (by decide)

theorem sub_digit {c : Char} (h : isDigit c = true) : sub c = c := by
  simp [sub, (digit_ne_sign h).1, digit_ne_amp h]

theorem map_sub_digits {ds : Text} (h : ∀ c ∈ ds, isDigit c = true) : ds.map sub = ds := by
  induction ds with
  | nil => rfl
  | cons c ds ih =>
    rw [List.map_cons, sub_digit (h c (by simp)), ih fun d hd => h d (List.mem_cons_of_mem _ hd)]

theorem fixDD_intText (a : Int) (s : Text) : fixDD (intText a ++ s) = intText a ++ fixDD s := by
  unfold intText
  split
  · exact fixDD_dash_digits (decimal_ne_nil _) (decimal_digits _) s
  · exact fixDD_digits (decimal_digits _) s

theorem fixDD_nil : fixDD [] = [] := rfl

theorem fixDD_intText' (a : Int) : fixDD (intText a) = intText a := by
  have := fixDD_intText a []
  simpa [fixDD_nil] using this

/-- A `-` followed by a number: the number's own minus sign survives as `&`. -/
theorem fixDD_dash (b : Int) :
    fixDD ('-' :: intText b) = if b < 0 then ' ' :: '&' :: decimal b.natAbs else '-' :: decimal b.natAbs := by
  unfold intText
  split
  · rfl
  · have := fixDD_dash_digits (decimal_ne_nil b.natAbs) (decimal_digits _) []
    simpa [fixDD_nil] using this

theorem fixTail_intText (a : Int) (s : Text) : fixTail (intText a ++ s) = intText a ++ s.map sub := by
  unfold intText
  split
  · rw [List.cons_append, fixTail_cons, List.map_append, map_sub_digits (decimal_digits _)]; rfl
  · have hdig := decimal_digits a.natAbs
    cases h : decimal a.natAbs with
    | nil => exact absurd h (decimal_ne_nil _)
    | cons d ds =>
      rw [h] at hdig
      rw [List.cons_append, fixTail_cons, List.map_append,
        map_sub_digits fun c hc => hdig c (List.mem_cons_of_mem _ hc)]
      rfl

theorem fix_one (a : Int) : fixTail (fixDD (intText a)) = intText a := by
  rw [fixDD_intText']
  have := fixTail_intText a []
  simpa using this

theorem fix_range (a b : Int) : fixTail (fixDD (intText a ++ '-' :: intText b)) = intText a ++ ' ' :: intText b := by
  rw [fixDD_intText, fixTail_intText, fixDD_dash]
  congr 1
  unfold intText
  split
  · simp only [List.map_cons, map_sub_digits (decimal_digits _)]
    rfl
  · simp only [List.map_cons, map_sub_digits (decimal_digits _)]
    rfl

theorem intText_ne_nil (a : Int) : intText a ≠ [] := by
  unfold intText
  split
  · simp
  · exact decimal_ne_nil _

theorem head_nil : ∀ c, ([] : Text).head? = some c → isDigit c = false := by simp

theorem tokenNumbers_one {a : Int} (h1 : -2147483648 ≤ a) (h2 : a ≤ intMax) :
    tokenNumbers (intText a) = [a] := by
  have := readInt_intText h1 h2 head_nil
  rw [List.append_nil] at this
  simp [tokenNumbers, this, readInt_nil]

theorem tokenNumbers_range {a b : Int} (h1 : -2147483648 ≤ a) (h2 : a ≤ intMax) (h3 : -2147483648 ≤ b)
    (h4 : b ≤ intMax) : tokenNumbers (intText a ++ ' ' :: intText b) = [a, b] := by
  have e1 := readInt_intText h1 h2 (r := ' ' :: intText b) (by simp [isDigit])
  have e2 := readInt_intText h3 h4 head_nil
  rw [List.append_nil, ← readInt_blank] at e2
  simp [tokenNumbers, e1, e2]

theorem mem_upTo {i j x : Int} : x ∈ upTo i j ↔ i ≤ x ∧ x ≤ j := by
  unfold upTo
  simp only [List.mem_map, List.mem_range]
  constructor
  · rintro ⟨k, h1, rfl⟩
    omega
  · intro h
    exact ⟨(x - i).toNat, by omega, by omega⟩

/-- One well-formed item adds exactly its numbers. -/
theorem augment_text (it : Item) (r : Rng) (h : r.ok) :
    ∃ ns, augment it r.text = some ⟨ns ++ it.numbers, true⟩ ∧ ns ≠ [] ∧ ∀ x, x ∈ ns ↔ r.has x := by
  cases r with
  | one a =>
    obtain ⟨h1, h2⟩ := h
    have e := tokenNumbers_one h1 (by unfold intMax; omega)
    refine ⟨[a], ?_, by simp, by simp [Rng.has]⟩
    unfold augment
    simp only [Rng.text]
    rw [fix_one, e]
    split
    · rename_i h; exact absurd h (intText_ne_nil a)
    · rfl
  | range a b =>
    obtain ⟨h1, h2, h3, h4⟩ := h
    have e := tokenNumbers_range h1 (by unfold intMax; omega) h3 (by unfold intMax; omega)
    have hne : ¬ max a b = intMax := by unfold intMax; omega
    by_cases hab : a = b
    · refine ⟨[a], ?_, by simp, by intro x; simp only [List.mem_singleton, Rng.has]; omega⟩
      unfold augment
      simp only [Rng.text]
      rw [fix_range, e]
      split
      · rename_i h; simp at h
      · simp [hab]
    · refine ⟨upTo (min a b) (max a b), ?_, ?_, ?_⟩
      · unfold augment
        simp only [Rng.text]
        rw [fix_range, e]
        split
        · rename_i h; simp at h
        · simp [hab, hne]
      · intro h
        have : min a b ∈ upTo (min a b) (max a b) := mem_upTo.2 ⟨Int.le_refl _, by omega⟩
        rw [h] at this; simp at this
      · intro x
        rw [mem_upTo]; simp only [Rng.has]; omega

theorem isNumberToken_text (r : Rng) : isNumberToken r.text = true := by
  have : ∀ (a : Int) (s : Text), isNumberToken (intText a ++ s) = true := by
    intro a s
    unfold intText
    split
    · rfl
    · cases h : decimal a.natAbs with
      | nil => exact absurd h (decimal_ne_nil _)
      | cons d ds =>
        have := decimal_digits a.natAbs d (by rw [h]; simp)
        simp [isNumberToken, this]
  cases r with
  | one a => have := this a []; simpa [Rng.text] using this
  | range a b => exact this a _

/-- A line of well-formed items adds exactly the numbers listed. -/
theorem readTokens_texts (rs : List Rng) (hok : ∀ r ∈ rs, r.ok) (it : Item) :
    ∃ ns, readTokens it (rs.map Rng.text) = some (⟨ns ++ it.numbers, true⟩, 0) ∧ (ns = [] ↔ rs = []) ∧
      ∀ x, x ∈ ns ↔ ∃ r ∈ rs, r.has x := by
  induction rs generalizing it with
  | nil => exact ⟨[], by simp [readTokens, augment], by simp, by simp⟩
  | cons r rs ih =>
    obtain ⟨n1, e1, hn1, h1⟩ := augment_text it r (hok r (by simp))
    obtain ⟨n2, e2, _, h2⟩ := ih (fun q hq => hok q (List.mem_cons_of_mem _ hq)) ⟨n1 ++ it.numbers, true⟩
    refine ⟨n2 ++ n1, ?_, by simp [hn1], ?_⟩
    · simp only [List.map_cons, readTokens, isNumberToken_text, if_true, e1, Option.bind_some, e2,
        List.append_assoc]
    · intro x
      simp only [List.mem_append, h1, h2, List.mem_cons, exists_eq_or_imp]
      exact or_comm

/-! ### Lines -/

theorem findOption_map {w : Text} {name : String} (h : w.map Char.toLower = name.toList) :
    findOption w false = vopts.findIdx? fun o => name.toList.isPrefixOf o := by
  unfold findOption
  rw [h]; rfl

theorem names_target (tg : Target) (name : String) (h : name ∈ namesOf tg) :
    ∃ n, vopts.findIdx? (fun o => name.toList.isPrefixOf o) = some n ∧ target n = some tg := by
  cases tg with
  | cell =>
    simp only [namesOf, List.mem_cons, List.not_mem_nil, or_false] at h
    rcases h with rfl | rfl
    · exact ⟨14, by decide +kernel, rfl⟩
    · exact ⟨15, by decide +kernel, rfl⟩
  | all =>
    simp only [namesOf, List.mem_cons, List.not_mem_nil, or_false] at h
    subst h
    exact ⟨13, by decide +kernel, rfl⟩
  | kind k =>
    cases k <;> simp only [namesOf, List.mem_cons, List.not_mem_nil, or_false] at h
    · subst h; exact ⟨0, by decide +kernel, rfl⟩
    · rcases h with rfl | rfl
      · exact ⟨1, by decide +kernel, rfl⟩
      · exact ⟨2, by decide +kernel, rfl⟩
    · subst h; exact ⟨3, by decide +kernel, rfl⟩
    · subst h; exact ⟨4, by decide +kernel, rfl⟩
    · rcases h with rfl | rfl | rfl
      · exact ⟨5, by decide +kernel, rfl⟩
      · exact ⟨6, by decide +kernel, rfl⟩
      · exact ⟨7, by decide +kernel, rfl⟩
    · subst h; exact ⟨8, by decide +kernel, rfl⟩
    · subst h; exact ⟨9, by decide +kernel, rfl⟩
    · subst h; exact ⟨10, by decide +kernel, rfl⟩
    · subst h; exact ⟨11, by decide +kernel, rfl⟩
    · rcases h with rfl | rfl
      · exact ⟨12, by decide +kernel, rfl⟩
      · exact ⟨16, by decide +kernel, rfl⟩
    · rcases h with rfl | rfl
      · exact ⟨17, by decide +kernel, rfl⟩
      · exact ⟨18, by decide +kernel, rfl⟩

/-- Every name starts with a letter. -/
theorem names_head (tg : Target) (name : String) (h : name ∈ namesOf tg) :
    ∃ c r, name.toList = c :: r ∧ c ≠ '_' := by
  cases tg with
  | cell =>
    simp only [namesOf, List.mem_cons, List.not_mem_nil, or_false] at h
    rcases h with rfl | rfl <;> exact ⟨_, _, rfl, by decide⟩
  | all =>
    simp only [namesOf, List.mem_cons, List.not_mem_nil, or_false] at h
    subst h; exact ⟨_, _, rfl, by decide⟩
  | kind k =>
    cases k <;> simp only [namesOf, List.mem_cons, List.not_mem_nil, or_false] at h
    all_goals first
      | (subst h; exact ⟨_, _, rfl, by decide⟩)
      | (rcases h with rfl | rfl <;> exact ⟨_, _, rfl, by decide⟩)
      | (rcases h with rfl | rfl | rfl <;> exact ⟨_, _, rfl, by decide⟩)

theorem getOption_line {e : Entry} {s : Text} (h : IsLine e s) :
    strtok isSpace s ≠ [] ∧ ∃ n, getOption s = (some (some n), e.list.map Rng.text) ∧ target n = some e.tg := by
  obtain ⟨lead, sep, w, name, l, h1, h2, h3, h4, h5, h6, rfl⟩ := h
  have ht : strtok isSpace (lead ++ layout (('-' :: w, sep) :: l)) = ('-' :: w) :: e.list.map Rng.text := by
    rw [strtok_seps h1, strtok_layout _ h5, List.map_cons, h6]
  obtain ⟨n, hn, htg⟩ := names_target e.tg name h2
  refine ⟨by rw [ht]; simp, n, ?_, htg⟩
  obtain ⟨c, r, hc, hne⟩ := names_head e.tg name h2
  have ho : isOption ('-' :: w) = true := by
    cases w with
    | nil => rw [hc] at h4; simp at h4
    | cons d w =>
      rcases h3 d (by simp) with h | h
      · exact h
      · subst h
        rw [hc] at h4
        simp only [List.map_cons, List.cons.injEq] at h4
        exact absurd h4.1.symm hne
  unfold getOption
  rw [ht]
  simp only [ho, if_true, List.drop_succ_cons, List.drop_zero]
  rw [findOption_map h4, hn]

theorem text_head (r : Rng) : ∃ c s, r.text = c :: s ∧ (isDigit c = true ∨ (c = '-' ∧ ∃ d t, s = d :: t ∧ isDigit d = true)) := by
  have : ∀ (a : Int) (u : Text), ∃ c s, intText a ++ u = c :: s ∧
      (isDigit c = true ∨ (c = '-' ∧ ∃ d t, s = d :: t ∧ isDigit d = true)) := by
    intro a u
    obtain ⟨d, ds, hd⟩ : ∃ d ds, decimal a.natAbs = d :: ds := by
      cases h : decimal a.natAbs with
      | nil => exact absurd h (decimal_ne_nil _)
      | cons d ds => exact ⟨d, ds, rfl⟩
    have hdig : isDigit d = true := decimal_digits a.natAbs d (by rw [hd]; simp)
    unfold intText
    split
    · exact ⟨'-', d :: ds ++ u, by rw [hd]; rfl, .inr ⟨rfl, d, ds ++ u, rfl, hdig⟩⟩
    · exact ⟨d, ds ++ u, by rw [hd]; rfl, .inl hdig⟩
  cases r with
  | one a => have := this a []; rw [List.append_nil] at this; exact this
  | range a b => exact this a _

theorem digit_not_alpha {c : Char} (h : isDigit c = true) : isAlpha c = false := by
  rw [isDigit_mem] at h
  simp only [digits, List.mem_cons, List.not_mem_nil, or_false] at h
  rcases h with h | h | h | h | h | h | h | h | h | h <;> subst h <;> decide

theorem digit_toLower {c : Char} (h : isDigit c = true) : c.toLower = c := by
  rw [isDigit_mem] at h
  simp only [digits, List.mem_cons, List.not_mem_nil, or_false] at h
  rcases h with h | h | h | h | h | h | h | h | h | h <;> subst h <;> decide

theorem text_not_option (r : Rng) : isOption r.text = false := by
  obtain ⟨c, s, hs, h⟩ := text_head r
  rw [hs]
  rcases h with h | ⟨rfl, d, t, rfl, h⟩
  · have hne := (digit_ne_sign h).1
    unfold isOption
    split
    · rename_i h'; simp only [List.cons.injEq] at h'; exact absurd h'.1 hne
    · rfl
  · exact digit_not_alpha h

theorem vopts_heads : ∀ o ∈ vopts, ∀ c s, o = c :: s → isDigit c = false ∧ c ≠ '-' := by
  have h : ∀ o ∈ vopts, (match o with | [] => true | c :: _ => !isDigit c && c != '-') = true := by decide +kernel
  intro o ho c s hs
  have := h o ho
  subst hs
  simpa using this

theorem text_not_name (r : Rng) : findOption r.text true = none := by
  obtain ⟨c, s, hs, h⟩ := text_head r
  unfold findOption
  rw [List.findIdx?_eq_none_iff]
  intro o ho
  simp only [if_true, beq_eq_false_iff_ne, ne_eq]
  intro he
  rw [hs, List.map_cons] at he
  have := vopts_heads o ho _ _ he
  rcases h with h | ⟨rfl, _⟩
  · rw [digit_toLower h, h] at this; simp at this
  · exact this.2 rfl

theorem getOption_continued {e : Entry} {s : Text} (h : IsContinued e s) :
    strtok isSpace s ≠ [] ∧ getOption s = (some none, e.list.map Rng.text) := by
  obtain ⟨lead, l, h1, h2, h3, h4, rfl⟩ := h
  have ht : strtok isSpace (lead ++ layout l) = e.list.map Rng.text := by
    rw [strtok_seps h1, strtok_layout _ h2, h3]
  obtain ⟨r, rs, hr⟩ : ∃ r rs, e.list = r :: rs := by
    cases h : e.list with
    | nil => exact absurd h h4
    | cons r rs => exact ⟨r, rs, rfl⟩
  refine ⟨by rw [ht, hr]; simp, ?_⟩
  unfold getOption
  rw [ht, hr]
  simp only [List.map_cons, text_not_option, Bool.false_eq_true, if_false, text_not_name]

/-! ### The effect of the entries -/

/-- The numbers of an entry are added to an item. -/
def Adds (e : Entry) (it it1 : Item) : Prop :=
  ∃ ns, it1 = ⟨ns ++ it.numbers, true⟩ ∧ (ns = [] ↔ e.list = []) ∧ ∀ x, x ∈ ns ↔ ∃ r ∈ e.list, r.has x

def Step (e : Entry) (st st1 : St) : Prop :=
  (e.tg = .all → st1.bins = (fun _ => ⟨[], true⟩) ∧ st1.cell = st.cell) ∧
  (e.tg = .cell → st1.bins = st.bins ∧ Adds e st.cell st1.cell) ∧
  (∀ k, e.tg = .kind k → st1.cell = st.cell ∧ Adds e (st.bins k) (st1.bins k) ∧ ∀ j, j ≠ k → st1.bins j = st.bins j)

inductive Steps : List Entry → St → St → Prop
  | nil (st) : Steps [] st st
  | cons (e es st st1 st2) : Step e st st1 → Steps es st1 st2 → Steps (e :: es) st st2

theorem applyLine_step (e : Entry) (hok : ∀ r ∈ e.list, r.ok) (st : St) :
    ∃ st1, applyLine st e.tg (e.list.map Rng.text) = some (st1, 0) ∧ Step e st st1 := by
  cases ht : e.tg with
  | all =>
    refine ⟨setAll st true, rfl, ?_, ?_, ?_⟩
    · intro _; exact ⟨rfl, rfl⟩
    · intro h; rw [ht] at h; cases h
    · intro k h; rw [ht] at h; cases h
  | cell =>
    obtain ⟨ns, h1, h2, h3⟩ := readTokens_texts e.list hok st.cell
    refine ⟨{ st with cell := ⟨ns ++ st.cell.numbers, true⟩ }, by simp [applyLine, h1], ?_, ?_, ?_⟩
    · intro h; rw [ht] at h; cases h
    · intro _; exact ⟨rfl, ns, rfl, h2, h3⟩
    · intro k h; rw [ht] at h; cases h
  | kind k =>
    obtain ⟨ns, h1, h2, h3⟩ := readTokens_texts e.list hok (st.bins k)
    refine ⟨{ st with bins := setBin st.bins k ⟨ns ++ (st.bins k).numbers, true⟩ }, by simp [applyLine, h1], ?_, ?_, ?_⟩
    · intro h; rw [ht] at h; cases h
    · intro h; rw [ht] at h; cases h
    · intro j h
      rw [ht] at h
      injection h with h
      subst h
      exact ⟨rfl, ⟨ns, by simp [setBin], h2, h3⟩, fun j hj => by simp [setBin, hj]⟩

theorem readLines_steps {t : Option Target} {es : List Entry} {ls : List Line} (h : IsRequest t es ls)
    (hok : ∀ e ∈ es, ∀ r ∈ e.list, r.ok) (st : St) :
    ∃ st1, readLines st t ls = some (st1, 0) ∧ Steps es st st1 := by
  induction h generalizing st with
  | nil => exact ⟨st, by simp [readLines], .nil _⟩
  | stop => exact ⟨st, by simp [readLines], .nil _⟩
  | line t e s es ls hl _ ih =>
    obtain ⟨h0, n, h1, h2⟩ := getOption_line hl
    obtain ⟨st1, h3, h4⟩ := applyLine_step e (hok e (by simp)) st
    obtain ⟨st2, h5, h6⟩ := ih (fun d hd => hok d (List.mem_cons_of_mem _ hd)) st1
    refine ⟨st2, ?_, .cons e es st st1 st2 h4 h6⟩
    rw [readLines, if_neg h0, h1]
    simp only [h2, h3, Option.bind_some, h5, Option.map_some]
  | more e s es ls hl _ ih =>
    obtain ⟨h0, h1⟩ := getOption_continued hl
    obtain ⟨st1, h3, h4⟩ := applyLine_step e (hok e (by simp)) st
    obtain ⟨st2, h5, h6⟩ := ih (fun d hd => hok d (List.mem_cons_of_mem _ hd)) st1
    refine ⟨st2, ?_, .cons e es st st1 st2 h4 h6⟩
    rw [readLines, if_neg h0, h1]
    simp only [h3, Option.bind_some, h5, Option.map_some]

/-- Own lists, none of them empty. -/
theorem steps_numbers {es : List Entry} {st st1 : St} (h : Steps es st st1) (k : Kind)
    (ha : ∀ e ∈ es, e.tg ≠ .all) (hn : ∀ e ∈ es, e.tg = .kind k → e.list ≠ []) :
    ∃ ns, (st1.bins k).numbers = ns ++ (st.bins k).numbers ∧
      ((st1.bins k).defined = true ↔ (st.bins k).defined = true ∨ ns ≠ []) ∧
      ∀ x, x ∈ ns ↔ ∃ e ∈ es, e.tg = .kind k ∧ ∃ r ∈ e.list, r.has x := by
  induction h with
  | nil => exact ⟨[], by simp, by simp, by simp⟩
  | cons e es st st1 st2 hs _ ih =>
    obtain ⟨ns, h1, h2, h3⟩ := ih (fun d hd => ha d (List.mem_cons_of_mem _ hd))
      (fun d hd => hn d (List.mem_cons_of_mem _ hd))
    by_cases hk : e.tg = .kind k
    · obtain ⟨_, ⟨n1, ha1, ha2, ha3⟩, _⟩ := hs.2.2 k hk
      have hne : n1 ≠ [] := fun h => hn e (by simp) hk (ha2.1 h)
      refine ⟨ns ++ n1, by rw [h1, ha1]; simp, ?_, ?_⟩
      · rw [h2, ha1]; simp [hne]
      · intro x
        simp only [List.mem_append, h3, ha3, List.mem_cons, exists_eq_or_imp]
        constructor
        · rintro (h | h)
          · exact .inr h
          · exact .inl ⟨hk, h⟩
        · rintro (⟨_, h⟩ | h)
          · exact .inr h
          · exact .inl h
    · have hb : st1.bins k = st.bins k := by
        cases ht : e.tg with
        | all => exact absurd ht (ha e (by simp))
        | cell => rw [(hs.2.1 ht).1]
        | kind j =>
          refine (hs.2.2 j ht).2.2 k ?_
          rintro rfl; exact hk ht
      refine ⟨ns, by rw [h1, hb], by rw [h2, hb], ?_⟩
      intro x
      rw [h3]
      simp only [List.mem_cons, exists_eq_or_imp, hk, false_and, false_or]

/-- Own lists, all of them empty. -/
theorem steps_all {es : List Entry} {st st1 : St} (h : Steps es st st1) (k : Kind)
    (hn : ∀ e ∈ es, e.tg = .kind k → e.list = []) (h0 : (st.bins k).numbers = []) :
    (st1.bins k).numbers = [] ∧
      ((st1.bins k).defined = true ↔ (st.bins k).defined = true ∨ ∃ e ∈ es, e.tg = .all ∨ e.tg = .kind k) := by
  induction h with
  | nil => exact ⟨h0, by simp⟩
  | cons e es st st1 st2 hs _ ih =>
    have hb : (st1.bins k).numbers = [] ∧
        ((st1.bins k).defined = true ↔ (st.bins k).defined = true ∨ e.tg = .all ∨ e.tg = .kind k) := by
      cases ht : e.tg with
      | all => rw [(hs.1 ht).1]; simp
      | cell => rw [(hs.2.1 ht).1]; simp [h0]
      | kind j =>
        by_cases hk : k = j
        · subst hk
          obtain ⟨_, ⟨n1, ha1, ha2, _⟩, _⟩ := hs.2.2 k ht
          have := ha2.2 (hn e (by simp) ht)
          rw [ha1, this]; simp [h0]
        · rw [(hs.2.2 j ht).2.2 k hk]
          have : j ≠ k := fun h => hk h.symm
          simp [h0, this]
    obtain ⟨h1, h2⟩ := ih (fun d hd => hn d (List.mem_cons_of_mem _ hd)) hb.1
    refine ⟨h1, ?_⟩
    rw [h2, hb.2]
    simp only [List.mem_cons, exists_eq_or_imp, or_assoc]

/-- Cell lists, none of them empty. -/
theorem steps_cell_numbers {es : List Entry} {st st1 : St} (h : Steps es st st1)
    (hn : ∀ e ∈ es, e.tg = .cell → e.list ≠ []) :
    ∃ ns, st1.cell.numbers = ns ++ st.cell.numbers ∧
      (st1.cell.defined = true ↔ st.cell.defined = true ∨ ns ≠ []) ∧
      ∀ x, x ∈ ns ↔ ∃ e ∈ es, e.tg = .cell ∧ ∃ r ∈ e.list, r.has x := by
  induction h with
  | nil => exact ⟨[], by simp, by simp, by simp⟩
  | cons e es st st1 st2 hs _ ih =>
    obtain ⟨ns, h1, h2, h3⟩ := ih (fun d hd => hn d (List.mem_cons_of_mem _ hd))
    by_cases hk : e.tg = .cell
    · obtain ⟨_, ⟨n1, ha1, ha2, ha3⟩⟩ := hs.2.1 hk
      have hne : n1 ≠ [] := fun h => hn e (by simp) hk (ha2.1 h)
      refine ⟨ns ++ n1, by rw [h1, ha1]; simp, ?_, ?_⟩
      · rw [h2, ha1]; simp [hne]
      · intro x
        simp only [List.mem_append, h3, ha3, List.mem_cons, exists_eq_or_imp]
        constructor
        · rintro (h | h)
          · exact .inr h
          · exact .inl ⟨hk, h⟩
        · rintro (⟨_, h⟩ | h)
          · exact .inr h
          · exact .inl h
    · have hb : st1.cell = st.cell := by
        cases ht : e.tg with
        | all => exact (hs.1 ht).2
        | cell => exact absurd ht hk
        | kind j => exact (hs.2.2 j ht).1
      refine ⟨ns, by rw [h1, hb], by rw [h2, hb], ?_⟩
      intro x
      rw [h3]
      simp only [List.mem_cons, exists_eq_or_imp, hk, false_and, false_or]

/-- Cell lists, all of them empty. -/
theorem steps_cell_all {es : List Entry} {st st1 : St} (h : Steps es st st1)
    (hn : ∀ e ∈ es, e.tg = .cell → e.list = []) (h0 : st.cell.numbers = []) :
    st1.cell.numbers = [] ∧
      (st1.cell.defined = true ↔ st.cell.defined = true ∨ ∃ e ∈ es, e.tg = .cell) := by
  induction h with
  | nil => exact ⟨h0, by simp⟩
  | cons e es st st1 st2 hs _ ih =>
    have hb : st1.cell.numbers = [] ∧ (st1.cell.defined = true ↔ st.cell.defined = true ∨ e.tg = .cell) := by
      cases ht : e.tg with
      | all => rw [(hs.1 ht).2]; simp [h0]
      | cell =>
        obtain ⟨_, ⟨n1, ha1, ha2, _⟩⟩ := hs.2.1 ht
        have := ha2.2 (hn e (by simp) ht)
        rw [ha1, this]; simp [h0]
      | kind j => rw [(hs.2.2 j ht).1]; simp [h0]
    obtain ⟨h1, h2⟩ := ih (fun d hd => hn d (List.mem_cons_of_mem _ hd)) hb.1
    refine ⟨h1, ?_⟩
    rw [h2, hb.2]
    simp only [List.mem_cons, exists_eq_or_imp, or_assoc]

/-- What an item selects. -/
def Selected (it : Item) (x : Int) : Prop := it.defined = true ∧ (it.numbers = [] ∨ x ∈ it.numbers)

theorem foldl_augmentInt_all {it : Item} (h : it.defined = true ∧ it.numbers = []) (ns : List Int) :
    ns.foldl augmentInt it = it := by
  induction ns with
  | nil => rfl
  | cons n ns ih => simp only [List.foldl_cons, augmentInt, if_pos h, ih]

theorem foldl_augmentInt {it : Item} (h : ¬ (it.defined = true ∧ it.numbers = [])) (ns : List Int) :
    (∀ x, x ∈ (ns.foldl augmentInt it).numbers ↔ x ∈ ns ∨ x ∈ it.numbers) ∧
    (ns ≠ [] → (ns.foldl augmentInt it).defined = true) ∧
    (it.defined = true → (ns.foldl augmentInt it).defined = true) := by
  induction ns generalizing it with
  | nil => simp
  | cons n ns ih =>
    have : augmentInt it n = ⟨n :: it.numbers, true⟩ := by simp only [augmentInt, if_neg h]
    obtain ⟨h1, h2, h3⟩ := ih (it := ⟨n :: it.numbers, true⟩) (by simp)
    simp only [List.foldl_cons, this]
    refine ⟨?_, fun _ => h3 rfl, fun _ => h3 rfl⟩
    intro x
    rw [h1]
    simp only [List.mem_cons]
    constructor
    · rintro (h | h | h) <;> simp [h]
    · rintro ((h | h) | h) <;> simp [h]

theorem deleteKind_spec {V} (it : Item) (m : Int → Option V) (x : Int) :
    (Selected it x → deleteKind it m x = none) ∧ (¬ Selected it x → deleteKind it m x = m x) := by
  have fold : ∀ (ns : List Int) (m : Int → Option V),
      (x ∈ ns → ns.foldl (fun m n => fun x => if x = n then none else m x) m x = none) ∧
      (x ∉ ns → ns.foldl (fun m n => fun x => if x = n then none else m x) m x = m x) ∧
      (m x = none → ns.foldl (fun m n => fun x => if x = n then none else m x) m x = none) := by
    intro ns
    induction ns with
    | nil => intro m; simp
    | cons n ns ih =>
      intro m
      obtain ⟨i1, i2, i3⟩ := ih (fun x => if x = n then none else m x)
      simp only [List.foldl_cons, List.mem_cons, not_or]
      refine ⟨?_, ?_, ?_⟩
      · rintro (h | h)
        · exact i3 (by simp [h])
        · exact i1 h
      · rintro ⟨h1, h2⟩
        rw [i2 h2]; simp [h1]
      · intro h; exact i3 (by simp [h])
  obtain ⟨f1, f2, _⟩ := fold it.numbers m
  unfold deleteKind Selected
  by_cases hd : it.defined = true
  · by_cases hn : it.numbers = []
    · simp [hd, hn]
    · simp only [hd, if_true, hn, if_false, true_and, false_or]
      exact ⟨f1, f2⟩
  · simp [hd]

/-! ### COPY -/

theorem blankDash_digits {ds : Text} (h : ∀ c ∈ ds, isDigit c = true) (s : Text) :
    blankDash (ds ++ s) = ds ++ blankDash s := by
  induction ds with
  | nil => rfl
  | cons c ds ih =>
    have hc := (digit_ne_sign (h c (by simp))).1
    rw [List.cons_append, blankDash, ih fun d hd => h d (List.mem_cons_of_mem _ hd)]
    · rfl
    · exact hc

theorem intText_cons (a : Int) : ∃ c ds, intText a = c :: ds ∧ ∀ d ∈ ds, isDigit d = true := by
  unfold intText
  split
  · exact ⟨'-', _, rfl, decimal_digits _⟩
  · cases h : decimal a.natAbs with
    | nil => exact absurd h (decimal_ne_nil _)
    | cons d ds =>
      exact ⟨d, ds, rfl, fun c hc => decimal_digits a.natAbs c (by rw [h]; exact List.mem_cons_of_mem _ hc)⟩

theorem copyTargets_one {a : Int} (h1 : -2147483648 ≤ a) (h2 : a ≤ intMax) : copyTargets (intText a) = some (a, a) := by
  have e := readInt_intText h1 h2 head_nil
  rw [List.append_nil] at e
  obtain ⟨c, ds, hc, hd⟩ := intText_cons a
  have hb := blankDash_digits hd []
  rw [List.append_nil] at hb
  rw [hc] at e ⊢
  simp only [copyTargets, hb, blankDash, List.append_nil, e, readInt_nil]

theorem copyTargets_range {a b : Int} (h1 : -2147483648 ≤ a) (h2 : a ≤ intMax) (h3 : -2147483648 ≤ b)
    (h4 : b ≤ intMax) : copyTargets (intText a ++ '-' :: intText b) = some (a, b) := by
  have e := readInt_intText h1 h2 (r := ' ' :: intText b) (by simp [isDigit])
  have e2 := readInt_intText h3 h4 head_nil
  rw [List.append_nil, ← readInt_blank] at e2
  obtain ⟨c, ds, hc, hd⟩ := intText_cons a
  have hb := blankDash_digits hd ('-' :: intText b)
  rw [hc] at e ⊢
  simp only [List.cons_append] at e ⊢
  simp only [copyTargets, hb, blankDash, e, e2]

theorem toInt32_toSize {x : Int} (h1 : -2147483648 ≤ x) (h2 : x ≤ 2147483647) : toInt32 (toSize x) = x := by
  unfold toInt32 toSize
  by_cases hx : 0 ≤ x
  · have e : x % 18446744073709551616 = x := by omega
    rw [e]
    have e2 : x.toNat % 4294967296 = x.toNat := by omega
    rw [e2, if_pos (by omega)]; omega
  · have e : x % 18446744073709551616 = x + 18446744073709551616 := by omega
    rw [e]
    have e2 : (x + 18446744073709551616).toNat % 4294967296 = (x + 4294967296).toNat := by omega
    rw [e2, if_neg (by omega)]; omega

theorem toSize_inj {x y : Int} (h1 : -2147483648 ≤ x) (h2 : x ≤ 2147483647) (h3 : -2147483648 ≤ y)
    (h4 : y ≤ 2147483647) (h : toSize x = toSize y) : x = y := by
  rw [← toInt32_toSize h1 h2, ← toInt32_toSize h3 h4, h]

theorem copyLoop_spec {V} (renum : Int → V → V) {src : Int} (hs1 : -2147483648 ≤ src) (hs2 : src ≤ 2147483647) (v : V)
    (n : Nat) : ∀ (i : Nat) (a : Int) (m : Int → Option V), m src = some v →
    (∀ t : Nat, t < n → i + t = toSize (a + t)) → -2147483648 ≤ a → a + n ≤ 2147483648 → ∀ x,
    ((a ≤ x ∧ x < a + n ∧ x ≠ src) → copyLoop renum src n i m x = some (renum x v)) ∧
    (¬ (a ≤ x ∧ x < a + n ∧ x ≠ src) → copyLoop renum src n i m x = m x) := by
  induction n with
  | zero =>
    intro i a m _ _ _ _ x
    constructor
    · intro h; omega
    · intro _; rfl
  | succ n ih =>
    intro i a m hm ht ha hb x
    have hi : i = toSize a := by have := ht 0 (by omega); simpa using this
    have hti : toInt32 i = a := by rw [hi]; exact toInt32_toSize ha (by omega)
    have hnext : ∀ t : Nat, t < n → i + 1 + t = toSize (a + 1 + t) := by
      intro t h
      have := ht (t + 1) (by omega)
      rw [show i + 1 + t = i + (t + 1) by omega, this]
      congr 1; push_cast; omega
    rw [copyLoop]
    by_cases hsrc : i = toSize src
    · have : a = src := toSize_inj ha (by omega) hs1 hs2 (by rw [← hi, hsrc])
      rw [if_pos hsrc]
      obtain ⟨i1, i2⟩ := ih (i + 1) (a + 1) m hm hnext (by omega) (by omega) x
      constructor
      · intro h; exact i1 (by omega)
      · intro h; exact i2 (by omega)
    · have hne : a ≠ src := by rintro rfl; exact hsrc hi
      rw [if_neg hsrc]
      have hc : rxnCopy renum m src (toInt32 i) = fun x => if x = a then some (renum a v) else m x := by
        unfold rxnCopy; rw [hm, hti]
      rw [hc]
      obtain ⟨i1, i2⟩ := ih (i + 1) (a + 1) (fun x => if x = a then some (renum a v) else m x)
        (by simp [Ne.symm hne, hm]) hnext (by omega) (by omega) x
      constructor
      · intro h
        by_cases hx : x = a
        · rw [i2 (by omega)]; simp [hx]
        · exact i1 (by omega)
      · intro h
        rw [i2 (by omega), if_neg]
        rintro rfl; omega

theorem toSize_add {a : Int} {t : Nat} (h : 0 ≤ a ∨ a + t < 0) (h1 : -2147483648 ≤ a) (h2 : a + t ≤ 2147483647) :
    toSize a + t = toSize (a + t) := by
  unfold toSize
  rcases h with h | h <;> omega

theorem copyOne_spec {V} (renum : Int → V → V) (m : Int → Option V) (src a b : Int) (hs1 : -2147483648 ≤ src)
    (hs2 : src ≤ 2147483647) (ha : -2147483648 ≤ a) (hab : a ≤ b) (hb : b ≤ 2147483647) (hsign : 0 ≤ a ∨ b < -1) :
    ∃ m', copyOne renum m (src, a, b) = some m' ∧ ∀ x,
      (∀ v, m src = some v → a ≤ x → x ≤ b → x ≠ src → m' x = some (renum x v)) ∧
      ((m src = none ∨ ¬ (a ≤ x ∧ x ≤ b) ∨ x = src) → m' x = m x) := by
  cases hm : m src with
  | none =>
    refine ⟨m, by simp [copyOne, hm], fun x => ⟨by simp, fun _ => rfl⟩⟩
  | some v =>
    have hle : toSize a ≤ toSize b := by unfold toSize; rcases hsign with h | h <;> omega
    have hlt : toSize b ≠ 18446744073709551615 := by unfold toSize; omega
    have hn : (((toSize b - toSize a + 1 : Nat)) : Int) = b - a + 1 := by
      unfold toSize; rcases hsign with h | h <;> omega
    have key := copyLoop_spec renum hs1 hs2 v (toSize b - toSize a + 1) (toSize a) a m hm
      (fun t h => toSize_add (by rcases hsign with h' | h' <;> omega) ha (by omega)) ha (by omega)
    refine ⟨_, by unfold copyOne; simp only [hm]; rw [if_neg (by simp), if_pos hle, if_neg hlt], ?_⟩
    intro x
    obtain ⟨k1, k2⟩ := key x
    constructor
    · intro w hw h1 h2 h3
      injection hw with hw
      subst hw
      exact k1 ⟨h1, by omega, h3⟩
    · rintro (h | h | h)
      · cases h
      · exact k2 (by omega)
      · exact k2 (by omega)

end Verif.Sbl
