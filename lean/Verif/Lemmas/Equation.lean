import Verif.Lemmas.Charge
import Verif.Lemmas.Combine
/-
Lemmas on species and equations.
-/
namespace Verif.Formula
open Verif.CText
open Verif.DataLine (Dec strtod strtod_word)

/-! ### Characters -/

theorem capital_scan : ∀ c ∈ capitals, c ≠ '+' ∧ c ≠ '-' ∧ c ≠ '=' ∧ c ≠ '[' := by decide

theorem small_scan : ∀ c ∈ smalls, c ≠ '+' ∧ c ≠ '-' ∧ c ≠ '=' ∧ c ≠ '[' := by decide

theorem digit_scan : ∀ c ∈ digits, c ≠ '+' ∧ c ≠ '-' ∧ c ≠ '=' ∧ c ≠ '[' := by decide

theorem tail_scan {c : Char} (h : c ∈ smalls ∨ c = '_') : c ≠ '+' ∧ c ≠ '-' ∧ c ≠ '=' ∧ c ≠ '[' := by
  rcases h with h | rfl
  · exact small_scan c h
  · decide

theorem num_chars {d : Dec} (h : IsNum d) : ∀ c ∈ d.text, c ∈ digits ∨ c = '.' := by
  intro c hc
  have ht := num_text h
  obtain ⟨⟨-, h1, h2, -⟩, -⟩ := h
  rw [ht, List.mem_append] at hc
  rcases hc with hc | hc
  · exact .inl (h1 c hc)
  · cases hf : d.fp with
    | none => rw [hf] at hc; simp at hc
    | some f =>
      rw [hf] at hc h2
      simp only [List.mem_cons] at hc
      exact hc.elim .inr (fun h => .inl (h2 c h))

theorem numText_chars {o : Option Dec} (h : NumOk o) : ∀ c ∈ numText o, c ∈ digits ∨ c = '.' := by
  intro c hc
  cases o with
  | none => simp [numText] at hc
  | some d => exact num_chars h c hc

theorem numText_length {o : Option Dec} (h : NumOk o) : (numText o).length ≤ 100 := by
  cases o with
  | none => simp [numText]
  | some d => exact h.2.2.2

/-! ### The name of a species -/

theorem scan_plain : ∀ {t r : List Char}, (∀ c ∈ t, c ≠ '+' ∧ c ≠ '-' ∧ c ≠ '=' ∧ c ≠ '[') →
    tokenScan false (t ++ r) = (tokenScan false r).map fun q => (t ++ q.1, q.2)
  | [], r, _ => by simp
  | c :: t, r, h => by
    obtain ⟨h1, h2, h3, h4⟩ := h c (by simp)
    have ih := scan_plain (r := r) (fun x hx => h x (List.mem_cons_of_mem _ hx) : ∀ c ∈ t, _)
    rw [List.cons_append, tokenScan, if_neg (by simp [h1, h2, h3])]
    simp only [h4, decide_false, ih, Option.map_map]
    rfl

theorem scan_inner : ∀ {i r : List Char}, (∀ c ∈ i, c ≠ ']') →
    tokenScan true (i ++ ']' :: r) = (tokenScan false r).map fun q => (i ++ ']' :: q.1, q.2)
  | [], r, _ => by simp [tokenScan]
  | c :: i, r, h => by
    have ih := scan_inner (r := r) (fun x hx => h x (List.mem_cons_of_mem _ hx) : ∀ c ∈ i, _)
    have h1 := h c (by simp)
    rw [List.cons_append, tokenScan]
    simp only [ne_eq, h1, not_false_eq_true, decide_true, ih, Option.map_map]
    rfl

theorem scan_name {n : Name} {r : List Char} (h : n.Ok) :
    tokenScan false (n.text ++ r) = (tokenScan false r).map fun q => (n.text ++ q.1, q.2) := by
  cases n with
  | plain c t =>
    apply scan_plain
    intro x hx
    simp only [Name.text, List.mem_cons] at hx
    rcases hx with rfl | hx
    · exact capital_scan _ h.1
    · exact tail_scan (h.2 x hx)
  | bracketed i t =>
    obtain ⟨-, h1, h2⟩ := h
    have ht : (Name.bracketed i t).text ++ r = '[' :: (i ++ ']' :: (t ++ r)) := by simp [Name.text]
    rw [ht, tokenScan, if_neg (by decide)]
    simp only [decide_true]
    rw [scan_inner (fun c hc => inner_ne (h1 c hc)), scan_plain (fun c hc => tail_scan (h2 c hc))]
    simp only [Option.map_map, Name.text]
    congr 1
    funext q
    simp

theorem scan_num {o : Option Dec} {r : List Char} (h : NumOk o) :
    tokenScan false (numText o ++ r) = (tokenScan false r).map fun q => (numText o ++ q.1, q.2) := by
  apply scan_plain
  intro c hc
  rcases numText_chars h c hc with h | rfl
  · exact digit_scan c h
  · decide

theorem map_map_append (x : Option (List Char × List Char)) (a b : List Char) :
    (x.map fun q => (b ++ q.1, q.2)).map (fun q => (a ++ q.1, q.2)) = x.map fun q => (a ++ b ++ q.1, q.2) := by
  cases x <;> simp

theorem scan_char {c : Char} {r : List Char} (h : c ≠ '+' ∧ c ≠ '-' ∧ c ≠ '=' ∧ c ≠ '[') :
    tokenScan false (c :: r) = (tokenScan false r).map fun q => ([c] ++ q.1, q.2) :=
  scan_plain (t := [c]) (r := r) (by simpa using h)

theorem scan_form : ∀ {f : Form} {r : List Char}, f.Ok →
    tokenScan false (f.text ++ r) = (tokenScan false r).map fun q => (f.text ++ q.1, q.2)
  | .nil, r, _ => by simp [Form.text]
  | .elem n d f, r, h => by
    obtain ⟨h1, h2, h3⟩ := h
    simp only [Form.text, List.append_assoc]
    rw [scan_name h1, scan_num h2, scan_form h3, map_map_append, map_map_append]
    simp
  | .group b d f, r, h => by
    obtain ⟨h1, h2, h3⟩ := h
    have ht : (Form.group b d f).text ++ r = '(' :: (b.text ++ ')' :: (numText d ++ (f.text ++ r))) := by simp [Form.text]
    rw [ht, scan_char (by decide), scan_form h1, scan_char (by decide), scan_num h2, scan_form h3, map_map_append,
      map_map_append, map_map_append, map_map_append]
    simp [Form.text]

theorem scan_parts : ∀ {l : List (Option Dec × Form)} {r : List Char}, (∀ q ∈ l, NumOk q.1 ∧ q.2.Ok) →
    tokenScan false (partsText l ++ r) = (tokenScan false r).map fun q => (partsText l ++ q.1, q.2)
  | [], r, _ => by simp [partsText]
  | (d, f) :: l, r, h => by
    obtain ⟨h1, h2⟩ := h (d, f) (by simp)
    have ih := scan_parts (r := r) (fun q hq => h q (List.mem_cons_of_mem _ hq))
    have ht : partsText ((d, f) :: l) ++ r = ':' :: (numText d ++ (f.text ++ (partsText l ++ r))) := by simp [partsText]
    rw [ht, scan_char (by decide), scan_num h1, scan_form h2, ih, map_map_append, map_map_append, map_map_append]
    simp [partsText]

theorem scan_compound {c : Compound} {r : List Char} (h : c.Ok) :
    tokenScan false (c.text ++ r) = (tokenScan false r).map fun q => (c.text ++ q.1, q.2) := by
  obtain ⟨-, h1, h2⟩ := h
  rw [Compound.text, List.append_assoc, scan_form h1, scan_parts h2, map_map_append]

/-- A body with or without marker. -/
def Body.Ok : Body → Prop
  | .electron => True
  | .compound c m => c.Ok ∧ (m = [] ∨ m ∈ markers)

theorem marker_scan {m : List Char} (h : m = [] ∨ m ∈ markers) : ∀ c ∈ m, c ≠ '+' ∧ c ≠ '-' ∧ c ≠ '=' ∧ c ≠ '[' := by
  have : ∀ m ∈ [] :: markers, ∀ c ∈ m, c ≠ '+' ∧ c ≠ '-' ∧ c ≠ '=' ∧ c ≠ '[' := by decide
  exact this m (List.mem_cons.2 h)

theorem scan_body {b : Body} {r : List Char} (h : b.Ok) :
    tokenScan false (b.text ++ r) = (tokenScan false r).map fun q => (b.text ++ q.1, q.2) := by
  cases b with
  | electron => exact scan_char (by decide)
  | compound c m =>
    obtain ⟨h1, h2⟩ := h
    rw [Body.text, List.append_assoc, scan_compound h1, scan_plain (marker_scan h2), map_map_append]

theorem scan_stop {r : List Char} (h : r = [] ∨ ∃ c u, r = c :: u ∧ (c = '+' ∨ c = '-' ∨ c = '=')) :
    tokenScan false r = some ([], r) := by
  rcases h with rfl | ⟨c, u, rfl, hc⟩
  · rfl
  · rw [tokenScan, if_pos hc]

/-! ### Characters at which a species begins -/

theorem capital_starts : ∀ c ∈ capitals, startsName c = true := by decide

theorem form_cons {f : Form} (h : f ≠ .nil) (hf : f.Ok) : ∃ c u, f.text = c :: u ∧ startsName c = true := by
  cases f with
  | nil => exact absurd rfl h
  | elem n d r =>
    obtain ⟨h1, -, -⟩ := hf
    cases n with
    | plain c t => exact ⟨c, _, rfl, capital_starts c h1.1⟩
    | bracketed i t => exact ⟨'[', _, rfl, by decide⟩
  | group b d r => exact ⟨'(', _, rfl, by decide⟩

theorem body_cons {b : Body} (h : b.Ok) : ∃ c u, b.text = c :: u ∧ startsName c = true := by
  cases b with
  | electron => exact ⟨'e', [], rfl, by decide⟩
  | compound c m =>
    obtain ⟨x, u, h1, h2⟩ := form_cons h.1.1 h.1.2.1
    exact ⟨x, u ++ partsText c.parts ++ m, by simp [Body.text, Compound.text, h1], h2⟩

theorem digit_starts : ∀ c ∈ digits, startsName c = false ∧ endsCharge c = false ∧ isCoefChar c = true ∧ c ≠ '+' ∧ c ≠ '-' := by
  decide

theorem starts_coef {c : Char} (h : startsName c = true) : isCoefChar c = false ∧ c ≠ '=' ∧ c ≠ '+' ∧ c ≠ '-' := by
  have key : isCoefChar c = true ∨ c = '=' → startsName c = false := by
    rintro (h | rfl)
    · simp only [isCoefChar, Bool.or_eq_true, decide_eq_true_eq] at h
      rcases h with ((h | rfl) | rfl) | rfl
      · exact (digit_starts c ((isDigit_mem c).1 h)).1
      all_goals decide
    · decide
  refine ⟨?_, ?_, ?_, ?_⟩
  · by_contra h0
    rw [key (.inl (by simpa using h0))] at h; simp at h
  · intro h0; rw [key (.inr h0)] at h; simp at h
  · rintro rfl; revert h; decide
  · rintro rfl; revert h; decide

/-- What may follow a species. -/
inductive After : List Char → Prop
  | nil : After []
  | eq (u : List Char) : After ('=' :: u)
  | next (s : Char) (o : Option Dec) (b : Char) (w : List Char) (hs : s = '+' ∨ s = '-') (ho : NumOk o)
      (hb : startsName b = true) : After (s :: (numText o ++ b :: w))

theorem lastSign_none : ∀ {t : List Char}, (∀ c ∈ t, c ≠ '+' ∧ c ≠ '-') → lastSign t = none
  | [], _ => rfl
  | c :: t, h => by
    obtain ⟨h1, h2⟩ := h c (by simp)
    rw [lastSign, lastSign_none (fun x hx => h x (List.mem_cons_of_mem _ hx))]
    simp [h1, h2]

theorem lastSign_append {s : Char} {t : List Char} (hs : s = '+' ∨ s = '-') (ht : ∀ c ∈ t, c ≠ '+' ∧ c ≠ '-') :
    ∀ x : List Char, lastSign (x ++ s :: t) = some (x, s :: t)
  | [] => by rw [List.nil_append, lastSign, lastSign_none ht]; simp [hs]
  | c :: x => by rw [List.cons_append, lastSign, lastSign_append hs ht x]

theorem charge_ends {z : Charge} (h : z.Ok) : ∀ c ∈ z.text, endsCharge c = false := by
  intro c hc
  rcases charge_chars h c hc with rfl | rfl | rfl | h
  · decide
  · decide
  · decide
  · exact (digit_starts c h).2.1

theorem getToken_species {b : Body} {z : Charge} {R : List Char} (hb : b.Ok) (hz : z.Ok) (hR : After R) :
    getToken (b.text ++ (z.text ++ R)) = .ok (b.text ++ z.canon.text, z.value, R) := by
  have hscan : tokenScan false (b.text ++ (z.text ++ R)) = some (b.text, z.text ++ R) := by
    rw [scan_body hb, scan_stop]
    · simp
    · rcases charge_cons z with ⟨h, -⟩ | ⟨c, u, h, hc⟩
      · rw [h]
        cases hR with
        | nil => exact .inl rfl
        | eq u => exact .inr ⟨_, _, rfl, by simp⟩
        | next s o b w hs => exact .inr ⟨_, _, rfl, by tauto⟩
      · rw [h]; exact .inr ⟨c, u ++ R, rfl, by tauto⟩
  have hne : b.text ≠ [] := by
    obtain ⟨c, u, h, -⟩ := body_cons hb; rw [h]; simp
  have hg := getCharge_text hz
  have hlen := charge_length hz
  unfold getToken
  rw [hscan]
  simp only
  rw [if_neg hne]
  -- scan of the charge
  have hends := charge_ends hz
  cases hR with
  | nil =>
    rw [List.append_nil] at *
    rcases charge_cons z with ⟨h, rfl⟩ | ⟨c, u, h, hc⟩
    · rw [h]; simp [Charge.canon, Charge.text, Charge.value]
    · have ht := takeWhile_append' (p := fun c => !endsCharge c) (t := z.text) (r := []) (by simpa using hends) (by simp)
      simp only [List.append_nil] at ht
      rw [h] at ht hg hlen ⊢
      simp only [ht]
      rw [if_neg (by rintro rfl; simp at hc), if_neg (by simp only [MAX_LENGTH]; omega), hg]
      rfl
  | eq v =>
    rcases charge_cons z with ⟨h, rfl⟩ | ⟨c, u, h, hc⟩
    · rw [h]; simp [Charge.canon, Charge.text, Charge.value]
    · have ht := takeWhile_append' (p := fun c => !endsCharge c) (t := z.text) (r := '=' :: v) (by simpa using hends)
        (by simp; decide)
      rw [h] at ht hg hlen ⊢
      simp only [List.cons_append] at ht ⊢
      rw [if_neg (by rintro rfl; simp at hc), ht.1, ht.2, if_neg (by simp only [MAX_LENGTH]; omega)]
      simp only [if_true]
      rw [hg]; rfl
  | next s o b' w hs ho hb' =>
    obtain ⟨h1, h2, h3, h4⟩ := starts_coef hb'
    have hoc : ∀ c ∈ numText o, endsCharge c = false ∧ c ≠ '+' ∧ c ≠ '-' := by
      intro c hc
      rcases numText_chars ho c hc with h | rfl
      · have := digit_starts c h; tauto
      · decide
    have hse : endsCharge s = false := by rcases hs with rfl | rfl <;> decide
    have ht := takeWhile_append' (p := fun c => !endsCharge c) (t := z.text ++ s :: numText o) (r := b' :: w)
      (by
        intro c hc
        simp only [List.mem_append, List.mem_cons] at hc
        rcases hc with hc | rfl | hc
        · simp [hends c hc]
        · simp [hse]
        · simp [(hoc c hc).1])
      (by intro c hc; simp at hc; subst hc; simp [endsCharge, hb'])
    have hls := lastSign_append hs (fun c hc => (hoc c hc).2) z.text
    have hl2 := numText_length ho
    have htext : z.text ++ s :: (numText o ++ b' :: w) = (z.text ++ s :: numText o) ++ b' :: w := by simp
    rw [htext]
    have hhead : ∃ c u, z.text ++ s :: numText o ++ b' :: w = c :: u ∧ (c = '+' ∨ c = '-') := by
      rcases charge_cons z with ⟨h, -⟩ | ⟨c, u, h, hc⟩
      · rw [h]; exact ⟨s, _, rfl, hs⟩
      · rw [h]; exact ⟨c, _, rfl, hc⟩
    obtain ⟨c, u, hcu, hc⟩ := hhead
    rw [hcu] at ht ⊢
    simp only
    rw [if_neg (by rintro rfl; simp at hc), ht.1, ht.2, if_neg (by simp [MAX_LENGTH]; omega)]
    simp only
    rw [if_neg h2, hls]
    simp only
    rw [hg]
    simp

/-! ### Coefficients -/

theorem getCoef_species {sg : List Char} {o : Option Dec} {b : Char} {w : List Char}
    (hs : sg = [] ∨ sg = ['+'] ∨ sg = ['-']) (ho : NumOk o) (hb : startsName b = true) :
    getCoef (sg ++ (numText o ++ b :: w)) = .ok (if sg = ['-'] then - numValue o else numValue o, b :: w) := by
  cases o with
  | none =>
    simp only [numText, List.nil_append, numValue]
    rcases hs with rfl | rfl | rfl
    · unfold getCoef; simp [hb]
    · have : startsName '+' = false := by decide
      unfold getCoef; simp [hb, this]
    · have : startsName '-' = false := by decide
      unfold getCoef; simp [hb, this]
  | some d =>
    have hd : IsNum d := ho
    simp only [numText, numValue]
    have hsg : DataLine.IsSign sg := by rcases hs with h | h | h <;> simp [DataLine.IsSign, h]
    have hchars : ∀ c ∈ sg ++ d.text, isCoefChar c = true := by
      intro c hc
      rw [List.mem_append] at hc
      rcases hc with hc | hc
      · rcases hs with rfl | rfl | rfl
        · simp at hc
        · simp at hc; subst hc; decide
        · simp at hc; subst hc; decide
      · rcases num_chars hd c hc with h | rfl
        · exact (digit_starts c h).2.2.1
        · decide
    have ht := takeWhile_append' (p := isCoefChar) (t := sg ++ d.text) (r := b :: w) hchars
      (by intro c hc; simp at hc; subst hc; exact (starts_coef hb).1)
    -- value
    let d' : Dec := { d with sign := sg }
    obtain ⟨⟨-, g1, g2, g3, g4⟩, g5, g6, g7⟩ := hd
    have hd' : d'.Ok := ⟨hsg, g1, g2, g3, g4⟩
    have hdt : d'.text = sg ++ d.text := by
      simp [d', Dec.text, g5]
    have hw := strtod_word (b := []) (d := d') (r := []) (by intro c hc; simp at hc) hd' (.inl rfl)
    simp only [List.nil_append, List.append_nil, hdt] at hw
    have hval : d'.value = if sg = ['-'] then - d.value else d.value := by
      simp only [d', Dec.value, DataLine.signed, g5, Dec.exponent]
      simp
    have hlen : ¬ MAX_LENGTH ≤ (sg ++ d.text).length := by
      have : sg.length ≤ 1 := by rcases hs with rfl | rfl | rfl <;> simp
      simp only [MAX_LENGTH, List.length_append]; omega
    -- head of the text
    obtain ⟨a, t, hat⟩ : ∃ a t, d.text = a :: t := by
      cases h : d.text with
      | nil => exact absurd h (num_ne_nil ho)
      | cons a t => exact ⟨a, t, rfl⟩
    have ha : startsName a = false ∧ a ≠ '+' ∧ a ≠ '-' := by
      rcases num_head ho a (by simp [hat]) with h | rfl
      · have := digit_starts a h; tauto
      · decide
    have htext : sg ++ (d.text ++ b :: w) = (sg ++ d.text) ++ b :: w := by simp
    rw [htext]
    obtain ⟨x, y, hxy, hx1, hx2⟩ : ∃ x y, (sg ++ d.text) ++ b :: w = x :: y ∧ startsName x = false ∧
        ((x = '+' ∨ x = '-') → y.head? = some a) := by
      rcases hs with rfl | rfl | rfl
      · exact ⟨a, _, by rw [hat]; rfl, ha.1, by tauto⟩
      · exact ⟨'+', _, rfl, by decide, by simp [hat]⟩
      · exact ⟨'-', _, rfl, by decide, by simp [hat]⟩
    have hx3 : isCoefChar x = true := hchars x (by
      have h0 : (sg ++ d.text) ≠ [] := by rw [hat]; simp
      cases hq : sg ++ d.text with
      | nil => exact absurd hq h0
      | cons p q => rw [hq] at hxy; simp at hxy; simp [hxy.1])
    rw [hxy] at ht ⊢
    unfold getCoef
    simp only
    rw [if_neg (by simp [hx1]), if_neg, if_neg, if_pos hx3, ht.1, ht.2, if_neg hlen, hw]
    · simp [hval]
    · rintro ⟨rfl, h⟩
      rw [hx2 (.inr rfl)] at h; simp [ha.1] at h
    · rintro ⟨rfl, h⟩
      rw [hx2 (.inl rfl)] at h; simp [ha.1] at h

/-! ### Species -/

/-- The name under which a species is stored. -/
def Species.name (s : Species) : List Char := s.body.text ++ s.charge.canon.text

/-- The entry made for a species. -/
def Species.tok (s : Species) : Tok := ⟨s.name, s.coef, s.charge.value⟩

/-- Well-formed up to markers. -/
def Species.Fit (s : Species) : Prop := NumOk s.num ∧ s.charge.Ok ∧ s.body.Ok

theorem ok_fit {s : Species} (h : s.Ok) : s.Fit := by
  obtain ⟨h1, h2, h3⟩ := h
  refine ⟨h1, h2, ?_⟩
  cases hb : s.body with
  | electron => exact trivial
  | compound c m => rw [hb] at h3; exact ⟨h3.1, .inl h3.2.2⟩

theorem getSpecies_text {s : Species} {R : List Char} (h : s.Fit) (hs : s.sign = [] ∨ s.sign = ['+'] ∨ s.sign = ['-'])
    (hR : After R) : getSpecies (s.text ++ R) = .ok (s.tok, R) := by
  obtain ⟨h1, h2, h3⟩ := h
  obtain ⟨b, u, hb, hbs⟩ := body_cons h3
  have ht : s.text ++ R = s.sign ++ (numText s.num ++ b :: (u ++ (s.charge.text ++ R))) := by
    simp [Species.text, hb]
  have hg := getToken_species h3 h2 hR
  rw [hb, List.cons_append] at hg
  unfold getSpecies
  rw [ht, getCoef_species hs h1 hbs]
  simp only [ok_bind, hg]
  simp [Species.tok, Species.name, Species.coef, hb]

/-- A species that begins with a sign can follow another one. -/
theorem after_species {s : Species} {R : List Char} (h : s.Fit) (hs : s.sign = ['+'] ∨ s.sign = ['-']) :
    After (s.text ++ R) := by
  obtain ⟨h1, h2, h3⟩ := h
  obtain ⟨b, u, hb, hbs⟩ := body_cons h3
  have ht : s.text ++ R = s.sign ++ (numText s.num ++ b :: (u ++ (s.charge.text ++ R))) := by
    simp [Species.text, hb]
  rw [ht]
  rcases hs with h | h <;> rw [h]
  · exact .next '+' s.num b _ (.inl rfl) h1 hbs
  · exact .next '-' s.num b _ (.inr rfl) h1 hbs

theorem side_after : ∀ {l : List Species} {R : List Char}, (∀ s ∈ l, s.Fit ∧ (s.sign = ['+'] ∨ s.sign = ['-'])) → After R →
    After (sideText l ++ R)
  | [], R, _, hR => by simpa [sideText] using hR
  | s :: l, R, h, _ => by
    have := h s (by simp)
    have ht : sideText (s :: l) ++ R = s.text ++ (sideText l ++ R) := by simp [sideText]
    rw [ht]
    exact after_species this.1 this.2

theorem species_cons {s : Species} (h : s.Fit) (hs : s.sign = [] ∨ s.sign = ['+'] ∨ s.sign = ['-']) :
    ∃ c u, s.text = c :: u ∧ c ≠ '=' := by
  obtain ⟨h1, h2, h3⟩ := h
  obtain ⟨b, u, hb, hbs⟩ := body_cons h3
  rcases hs with h | h | h
  · cases hn : s.num with
    | none => exact ⟨b, u ++ s.charge.text, by simp [Species.text, h, hn, numText, hb], (starts_coef hbs).2.1⟩
    | some d =>
      rw [hn] at h1
      cases hd : d.text with
      | nil => exact absurd hd (num_ne_nil h1)
      | cons a t =>
        refine ⟨a, t ++ s.body.text ++ s.charge.text, by simp [Species.text, h, hn, numText, hd], ?_⟩
        rcases num_head h1 a (by simp [hd]) with h | rfl
        · exact (digit_scan a h).2.2.1
        · decide
  · exact ⟨'+', numText s.num ++ s.body.text ++ s.charge.text, by simp [Species.text, h], by decide⟩
  · exact ⟨'-', numText s.num ++ s.body.text ++ s.charge.text, by simp [Species.text, h], by decide⟩

theorem lhs_side : ∀ {l : List Species} {n : Nat} {R : List Char}, l.length < n → (∀ s ∈ l, s.Fit) → SideOk l →
    lhs n (sideText l ++ '=' :: R) = .ok (l.map Species.tok, R)
  | [], n, R, hn, _, _ => by
    obtain ⟨n, rfl⟩ : ∃ j, n = j + 1 := ⟨n - 1, by simp at hn; omega⟩
    simp [sideText, lhs]
  | s :: l, n, R, hn, hf, hs => by
    obtain ⟨n, rfl⟩ : ∃ j, n = j + 1 := ⟨n - 1, by simp at hn; omega⟩
    obtain ⟨hs1, hs2⟩ := hs
    have hfs := hf s (by simp)
    have hfl : ∀ t ∈ l, t.Fit := fun t ht => hf t (List.mem_cons_of_mem _ ht)
    have hsl : SideOk l := by
      cases l with
      | nil => exact trivial
      | cons t l =>
        exact ⟨.inr (hs2 t (by simp)), fun x hx => hs2 x (List.mem_cons_of_mem _ hx)⟩
    have ht : sideText (s :: l) ++ '=' :: R = s.text ++ (sideText l ++ '=' :: R) := by simp [sideText]
    have hg := getSpecies_text hfs hs1 (side_after (R := '=' :: R) (fun t ht => ⟨hfl t ht, hs2 t ht⟩) (.eq R))
    obtain ⟨c, u, hc, hce⟩ := species_cons hfs hs1
    rw [ht]
    rw [hc, List.cons_append] at hg ⊢
    rw [lhs]
    rw [if_neg hce, hg]
    simp only [ok_bind]
    rw [lhs_side (by simp at hn; omega) hfl hsl]
    rfl

theorem rhs_side : ∀ {l : List Species} {n : Nat}, l.length < n → (∀ s ∈ l, s.Fit) → SideOk l →
    rhs n (sideText l) = .ok (l.map Species.tok)
  | [], n, hn, _, _ => by
    obtain ⟨n, rfl⟩ : ∃ j, n = j + 1 := ⟨n - 1, by simp at hn; omega⟩
    simp [sideText, rhs]
  | s :: l, n, hn, hf, hs => by
    obtain ⟨n, rfl⟩ : ∃ j, n = j + 1 := ⟨n - 1, by simp at hn; omega⟩
    obtain ⟨hs1, hs2⟩ := hs
    have hfs := hf s (by simp)
    have hfl : ∀ t ∈ l, t.Fit := fun t ht => hf t (List.mem_cons_of_mem _ ht)
    have hsl : SideOk l := by
      cases l with
      | nil => exact trivial
      | cons t l =>
        exact ⟨.inr (hs2 t (by simp)), fun x hx => hs2 x (List.mem_cons_of_mem _ hx)⟩
    have ht : sideText (s :: l) = s.text ++ sideText l := by simp [sideText]
    have ha := side_after (R := []) (fun t ht => ⟨hfl t ht, hs2 t ht⟩) .nil
    rw [List.append_nil] at ha
    have hg := getSpecies_text hfs hs1 ha
    obtain ⟨c, u, hc, hce⟩ := species_cons hfs hs1
    rw [ht]
    rw [hc, List.cons_append] at hg ⊢
    rw [rhs]
    rw [hg]
    simp only [ok_bind]
    rw [rhs_side (by simp at hn; omega) hfl hsl]
    rfl

theorem side_length : ∀ {l : List Species}, (∀ s ∈ l, s.Fit) → l.length ≤ (sideText l).length
  | [], _ => by simp
  | s :: l, h => by
    obtain ⟨c, u, hb, -⟩ := body_cons (h s (by simp)).2.2
    have := side_length (fun t ht => h t (List.mem_cons_of_mem _ ht))
    simp only [sideText, List.flatMap_cons, List.length_append, List.length_cons, Species.text, hb] at this ⊢
    omega

end Verif.Formula
