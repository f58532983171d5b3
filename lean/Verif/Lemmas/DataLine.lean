import Verif.Spec.DataLine
import Verif.Lemmas.CText
import Verif.Lemmas.Control
import Verif.Lemmas.Calendar
import Mathlib.Tactic.Linarith
import Mathlib.Tactic.FieldSimp
import Mathlib.Tactic.Ring
import Mathlib.Tactic.NormNum
import Mathlib.Algebra.Order.Field.Rat
/-
Helper lemmas for data files.
-/
namespace Verif.DataLine
open Verif.CText Verif.CFile
open Verif.ParFile (Ty)

/-! ### Numbers -/

theorem pow10_eq (e : Int) : pow10 e = if 0 ≤ e then (10 : Rat) ^ e.toNat else 1 / 10 ^ (-e).toNat := by
  cases e with
  | ofNat n => simp [pow10]
  | negSucc n =>
    have h : ¬ (0 : Int) ≤ Int.negSucc n := by omega
    have h2 : (-Int.negSucc n).toNat = n + 1 := by omega
    rw [if_neg h, h2]; simp [pow10]

theorem pow10_zpow (e : Int) : pow10 e = (10 : Rat) ^ e := by
  cases e with
  | ofNat n => simp [pow10]
  | negSucc n => simp [pow10, zpow_negSucc]

theorem pow10_sub (e : Int) (n : Nat) : pow10 (e - n) = pow10 e / 10 ^ n := by
  rw [pow10_zpow, pow10_zpow, zpow_sub₀ (by norm_num)]
  simp

theorem readSign_sign {s u : List Char} (hs : IsSign s) (hu : ∀ c, u.head? = some c → c ≠ '-' ∧ c ≠ '+') :
    readSign (s ++ u) = (decide (s = ['-']), u) := by
  rcases hs with rfl | rfl | rfl
  · cases u with
    | nil => rfl
    | cons c u =>
      obtain ⟨h1, h2⟩ := hu c rfl
      simp only [List.nil_append]
      unfold readSign
      split
      · rename_i heq; simp only [List.cons.injEq] at heq; exact absurd heq.1 h1
      · rename_i heq; simp only [List.cons.injEq] at heq; exact absurd heq.1 h2
      · rfl
  · rfl
  · rfl

/-- Drop white space before a word that begins with something else. -/
theorem dropWhile_blank {b u : List Char} (hb : Blank b) (hu : ∀ c, u.head? = some c → isSpace c = false) :
    (b ++ u).dropWhile isSpace = u := by
  induction b with
  | nil =>
    cases u with
    | nil => rfl
    | cons c u => simp [hu c rfl]
  | cons c b ih =>
    have hc : isSpace c = true := by
      rcases hb c (by simp) with rfl | rfl | rfl <;> decide
    rw [List.cons_append, List.dropWhile_cons_of_pos hc]
    exact ih (fun d hd => hb d (List.mem_cons_of_mem _ hd))

theorem isDigit_of_mem {c : Char} (h : c ∈ digits) : isDigit c = true := (isDigit_mem c).2 h

theorem after_not_digit {r : List Char} (h : AfterWord r) : ∀ c, r.head? = some c → isDigit c = false := by
  rcases h with rfl | ⟨c, s, rfl, h⟩
  · simp
  · intro d hd
    simp only [List.head?_cons, Option.some.injEq] at hd
    subst hd
    rcases h with rfl | rfl | rfl | rfl <;> decide

theorem after_not {r : List Char} (h : AfterWord r) : ∀ c, r.head? = some c → c ≠ '.' ∧ c ≠ 'e' ∧ c ≠ 'E' := by
  rcases h with rfl | ⟨c, s, rfl, h⟩
  · simp
  · intro d hd
    simp only [List.head?_cons, Option.some.injEq] at hd
    subst hd
    rcases h with rfl | rfl | rfl | rfl <;> decide

/-- Head of a word without its sign. -/
theorem headOk {u : List Char} (h : ∀ c, u.head? = some c → c ∈ digits ∨ c = '.') :
    (∀ c, u.head? = some c → c ≠ '-' ∧ c ≠ '+') ∧ ∀ c, u.head? = some c → isSpace c = false := by
  constructor
  · intro c hc
    rcases h c hc with hd | rfl
    · exact digit_ne_sign (isDigit_of_mem hd)
    · decide
  · intro c hc
    rcases h c hc with hd | rfl
    · exact digit_not_space (isDigit_of_mem hd)
    · decide

theorem sign_head {s u : List Char} (hs : IsSign s) (hu : ∀ c, u.head? = some c → isSpace c = false) :
    ∀ c, (s ++ u).head? = some c → isSpace c = false := by
  rcases hs with rfl | rfl | rfl
  · simpa using hu
  · intro c hc; simp at hc; subst hc; decide
  · intro c hc; simp at hc; subst hc; decide

theorem strtol_word {b : List Char} {d : Dec} {r : List Char} (hb : Blank b) (hd : d.Ok) (hi : d.IsInt)
    (hr : ∀ c, r.head? = some c → isDigit c = false) :
    strtol (b ++ d.text ++ r) = (d.int, r) := by
  obtain ⟨h1, h2, h3, h4, -⟩ := hd
  obtain ⟨hf, he⟩ := hi
  have hip : d.ip ≠ [] := by simpa [hf] using h4
  have htext : b ++ d.text ++ r = b ++ (d.sign ++ (d.ip ++ r)) := by simp [Dec.text, hf, he]
  have hhead : ∀ c, (d.ip ++ r).head? = some c → c ∈ digits ∨ c = '.' := by
    intro c hc
    cases hx : d.ip with
    | nil => exact absurd hx hip
    | cons a t => rw [hx] at hc; simp at hc; subst hc; exact .inl (h2 a (by simp [hx]))
  obtain ⟨ha, hb'⟩ := headOk hhead
  rw [htext]
  unfold strtol
  rw [dropWhile_blank hb (sign_head h1 hb'), readSign_sign h1 ha]
  have hrd := readDigits_append (fun c hc => isDigit_of_mem (h2 c hc)) 0 hr
  simp only [Nat.zero_mul, Nat.zero_add] at hrd
  cases hx : d.ip with
  | nil => exact absurd hx hip
  | cons a t =>
    have hda := isDigit_of_mem (h2 a (by simp [hx]))
    rw [hx] at hrd
    simp only [List.cons_append] at hrd ⊢
    simp only [strtolBody, hda, if_true, hrd, Dec.int, signed, hx, decide_eq_true_eq]

theorem fracPart_some {f r : List Char} (acc : Nat) (hf : ∀ c ∈ f, c ∈ digits)
    (hr : ∀ c, r.head? = some c → isDigit c = false) :
    fracPart acc ('.' :: (f ++ r)) = (acc * 10 ^ f.length + numeral f, f.length, r) := by
  have h := readDigits_append (fun c hc => isDigit_of_mem (hf c hc)) acc hr
  simp [fracPart, h]

theorem fracPart_none {r : List Char} (acc : Nat) (hr : ∀ c, r.head? = some c → c ≠ '.') :
    fracPart acc r = (acc, 0, r) := by
  cases r with
  | nil => rfl
  | cons c r => simp [fracPart, hr c rfl]

theorem expPart_none {r : List Char} (hr : ∀ c, r.head? = some c → c ≠ 'e' ∧ c ≠ 'E') : expPart r = (0, r) := by
  cases r with
  | nil => rfl
  | cons c r => simp [expPart, hr c rfl]

theorem expPart_some {c : Char} {s e r : List Char} (hc : c = 'e' ∨ c = 'E') (hs : IsSign s) (he : e ≠ [])
    (hd : ∀ x ∈ e, x ∈ digits) (hr : ∀ c, r.head? = some c → isDigit c = false) :
    expPart (c :: (s ++ (e ++ r))) = (signed s (numeral e : Int), r) := by
  have hhead : ∀ c, (e ++ r).head? = some c → c ∈ digits ∨ c = '.' := by
    intro c hc
    cases hx : e with
    | nil => exact absurd hx he
    | cons a t => rw [hx] at hc; simp at hc; subst hc; exact .inl (hd a (by simp [hx]))
  have hsg := readSign_sign hs (headOk hhead).1
  have hrd := readDigits_append (fun x hx => isDigit_of_mem (hd x hx)) 0 hr
  simp only [Nat.zero_mul, Nat.zero_add] at hrd
  simp only [expPart, if_pos hc, hsg]
  cases hx : e with
  | nil => exact absurd hx he
  | cons a t =>
    have hda := isDigit_of_mem (hd a (by simp [hx]))
    rw [hx] at hrd
    simp only [List.cons_append] at hrd ⊢
    simp only [hda, if_true, hrd, signed, decide_eq_true_eq]

/-- The text of an exponent. -/
def exText (d : Dec) : List Char := match d.ex with | none => [] | some (c, s, e) => c :: s ++ e

theorem expPart_dec {d : Dec} {r : List Char} (hd : d.Ok) (hr : AfterWord r) :
    expPart (exText d ++ r) = (d.exponent, r) := by
  obtain ⟨-, -, -, -, h5⟩ := hd
  unfold exText Dec.exponent
  cases hx : d.ex with
  | none => exact expPart_none (fun c hc => (after_not hr c hc).2)
  | some x =>
    obtain ⟨c, s, e⟩ := x
    rw [hx] at h5
    obtain ⟨h5, h6, h7, h8⟩ := h5
    have := expPart_some h5 h6 h7 h8 (after_not_digit hr)
    simpa [List.append_assoc] using this

theorem ex_head {d : Dec} {r : List Char} (hd : d.Ok) (hr : AfterWord r) :
    ∀ c, (exText d ++ r).head? = some c → isDigit c = false ∧ c ≠ '.' := by
  obtain ⟨-, -, -, -, h5⟩ := hd
  intro c hc
  unfold exText at hc
  cases hx : d.ex with
  | none => rw [hx] at hc; exact ⟨after_not_digit hr c hc, (after_not hr c hc).1⟩
  | some x =>
    obtain ⟨c', s, e⟩ := x
    rw [hx] at h5 hc
    simp at hc
    subst hc
    rcases h5.1 with rfl | rfl <;> decide

theorem strtod_word {b : List Char} {d : Dec} {r : List Char} (hb : Blank b) (hd : d.Ok) (hr : AfterWord r) :
    strtod (b ++ d.text ++ r) = (d.value, r) := by
  have hex := expPart_dec hd hr
  have hexh := ex_head hd hr
  obtain ⟨h1, h2, h3, h4, -⟩ := hd
  generalize hm : (match d.fp with | none => [] | some f => '.' :: f) = m
  have htext : b ++ d.text ++ r = b ++ (d.sign ++ (d.ip ++ (m ++ (exText d ++ r)))) := by
    rw [← hm]; cases hfp : d.fp <;> cases hxe : d.ex <;> simp [Dec.text, exText, hfp, hxe]
  have hmh : ∀ c, (m ++ (exText d ++ r)).head? = some c → isDigit c = false := by
    intro c hc
    cases hx : d.fp with
    | none => rw [hx] at hm; subst hm; exact (hexh c hc).1
    | some f => rw [hx] at hm; subst hm; simp at hc; subst hc; decide
  have hrd := readDigits_append (fun c hc => isDigit_of_mem (h2 c hc)) 0 hmh
  simp only [Nat.zero_mul, Nat.zero_add] at hrd
  have hfr : fracPart (numeral d.ip) (m ++ (exText d ++ r)) =
      (numeral d.ip * 10 ^ (d.fp.getD []).length + numeral (d.fp.getD []), (d.fp.getD []).length, exText d ++ r) := by
    cases hx : d.fp with
    | none =>
      rw [hx] at hm; subst hm
      have := fracPart_none (numeral d.ip) (fun c hc => (hexh c hc).2)
      simpa [numeral] using this
    | some f =>
      rw [hx] at hm; subst hm
      have := fracPart_some (f := f) (numeral d.ip) (by simpa [hx] using h3) (fun c hc => (hexh c hc).1)
      simpa using this
  have hhead : ∀ c, (d.ip ++ (m ++ (exText d ++ r))).head? = some c → c ∈ digits ∨ c = '.' := by
    intro c hc
    cases hx : d.ip with
    | nil =>
      cases hy : d.fp with
      | none => simp [hx, hy] at h4
      | some f => rw [hy] at hm; subst hm; rw [hx] at hc; simp at hc; exact .inr hc.symm
    | cons a t => rw [hx] at hc; simp at hc; subst hc; exact .inl (h2 a (by simp [hx]))
  obtain ⟨ha, hb'⟩ := headOk hhead
  rw [htext]
  unfold strtod
  rw [dropWhile_blank hb (sign_head h1 hb'), readSign_sign h1 ha]
  unfold strtodBody
  simp only [hrd, hfr, hex]
  have hlen : ¬ ((d.ip ++ (m ++ (exText d ++ r))).length - (m ++ (exText d ++ r)).length + (d.fp.getD []).length = 0) := by
    intro h
    apply h4
    have ha : d.ip.length = 0 := by simp only [List.length_append] at h; omega
    have hb : (d.fp.getD []).length = 0 := by omega
    rw [List.length_eq_zero_iff] at ha hb
    rw [ha, hb]; rfl
  rw [if_neg hlen, pow10_sub]
  congr 1
  have hv : ((numeral d.ip * 10 ^ (d.fp.getD []).length + numeral (d.fp.getD []) : Nat) : Rat) *
      (pow10 d.exponent / 10 ^ (d.fp.getD []).length) =
      (numeral d.ip + (numeral (d.fp.getD []) : Rat) / 10 ^ (d.fp.getD []).length) * pow10 d.exponent := by
    have : (10 : Rat) ^ (d.fp.getD []).length ≠ 0 := by positivity
    push_cast
    field_simp
  rw [hv, Dec.value, ← pow10_eq]
  simp only [signed, decide_eq_true_eq]

theorem int_value {d : Dec} (hi : d.IsInt) : d.value = (d.int : Rat) := by
  obtain ⟨hf, he⟩ := hi
  simp only [Dec.value, Dec.int, hf, Dec.exponent, he, signed]
  split <;> simp [numeral]

theorem truncInt_int (n : Int) (h : n < 2 ^ 31) : truncInt (n : Rat) = n := by
  have : ((n : Rat) < 2147483648) := by
    have : n < 2147483648 := by simpa using h
    exact_mod_cast this
  simp [truncInt, this]

/-! ### Words -/

theorem blank_after {s : List Char} (hb : Blank s) (h0 : s ≠ []) (r : List Char) : AfterWord (s ++ r) := by
  cases s with
  | nil => exact absurd rfl h0
  | cons c s =>
    refine .inr ⟨c, s ++ r, rfl, ?_⟩
    rcases hb c (by simp) with h | h | h
    · exact .inl h
    · exact .inr (.inl h)
    · exact .inr (.inr (.inl h))

theorem words_after {ws : List (List Char × Dec)} (h : Separated ws) {r : List Char} (hr : AfterWord r) :
    AfterWord (wordsText ws ++ r) := by
  cases ws with
  | nil => exact hr
  | cons w ws =>
    obtain ⟨s, d⟩ := w
    obtain ⟨h0, hb⟩ := h (s, d) (by simp)
    simp only [wordsText, List.append_assoc]
    exact blank_after hb h0 _

theorem readValue_word {V} (cv : Conv V) (ty : Ty) {s : List Char} {d : Dec} {r : List Char} (hs : Blank s)
    (hf : FitsType cv ty d) (hr : AfterWord r) :
    readValue cv ty (s ++ d.text ++ r) = some (meaning cv ty d, r) := by
  obtain ⟨hok, hf⟩ := hf
  cases ty with
  | long =>
    obtain ⟨hi, ha, hb⟩ := hf
    have h := strtol_word hs hok hi (after_not_digit hr)
    simp only [readValue, h, meaning]
    rw [if_neg]
    omega
  | float =>
    have h := strtod_word hs hok hr
    simp only at hf
    simp only [readValue, h, meaning, hf]
    rfl
  | double =>
    have h := strtod_word hs hok hr
    simp only at hf
    simp only [readValue, h, meaning, hf]
    rfl

theorem readCol_words {V} (cv : Conv V) (ty : Ty) : ∀ (n : Nat) (ws : List (List Char × Dec)) (r : List Char),
    ws.length = n → Separated ws → (∀ w ∈ ws, FitsType cv ty w.2) → AfterWord r →
    readCol cv ty n (wordsText ws ++ r) = some (ws.map fun w => meaning cv ty w.2, r)
  | 0, ws, r, hn, _, _, _ => by
    rw [List.length_eq_zero_iff] at hn; subst hn; rfl
  | n + 1, [], r, hn, _, _, _ => by simp at hn
  | n + 1, (s, d) :: ws, r, hn, hs, hf, hr => by
    have hs' : Separated ws := fun w hw => hs w (List.mem_cons_of_mem _ hw)
    have ih := readCol_words cv ty n ws r (by simpa using hn) hs' (fun w hw => hf w (List.mem_cons_of_mem _ hw)) hr
    have h1 := readValue_word cv ty (hs (s, d) (by simp)).2 (hf (s, d) (by simp)) (words_after hs' hr)
    simp only [wordsText, List.append_assoc, List.map_cons] at h1 ⊢
    rw [readCol, h1]
    simp only [ih]

theorem wordsText_append (a b : List (List Char × Dec)) : wordsText (a ++ b) = wordsText a ++ wordsText b := by
  induction a with
  | nil => rfl
  | cons w a ih => obtain ⟨s, d⟩ := w; simp [wordsText, ih]

theorem zipWith_replicate {α β γ} (f : α → β → γ) (a : α) : ∀ (l : List β) (n : Nat), l.length = n →
    List.zipWith f (List.replicate n a) l = l.map (f a)
  | [], 0, _ => rfl
  | [], _ + 1, h => by simp at h
  | _ :: _, 0, h => by simp at h
  | b :: l, n + 1, h => by
    simp only [List.replicate_succ, List.zipWith_cons_cons, List.map_cons]
    rw [zipWith_replicate f a l n (by simpa using h)]

theorem types_cons (c : Col) (cs : List Col) : types (c :: cs) = List.replicate c.count c.type ++ types cs := by
  simp [types]

theorem readValues_words {V} (cv : Conv V) : ∀ (cols : List Col) (ws : List (List Char × Dec)) (r : List Char),
    Separated ws → Fit cv (types cols) (ws.map (·.2)) → AfterWord r →
    readValues cv cols (wordsText ws ++ r) = some (buffers cv cols (ws.map (·.2)))
  | [], ws, r, _, _, _ => by simp [readValues, buffers, chunks]
  | c :: cs, ws, r, hs, ⟨hl, hf⟩, hr => by
    rw [types_cons] at hl hf
    simp only [List.length_append, List.length_replicate, List.length_map] at hl
    obtain ⟨w1, w2, rfl, hn⟩ : ∃ w1 w2, ws = w1 ++ w2 ∧ w1.length = c.count :=
      ⟨ws.take c.count, ws.drop c.count, (List.take_append_drop _ _).symm, by simp; omega⟩
    have hs1 : Separated w1 := fun w hw => hs w (List.mem_append_left _ hw)
    have hs2 : Separated w2 := fun w hw => hs w (List.mem_append_right _ hw)
    have hz : (List.replicate c.count c.type ++ types cs).zip ((w1 ++ w2).map (·.2)) =
        (List.replicate c.count c.type).zip (w1.map (·.2)) ++ (types cs).zip (w2.map (·.2)) := by
      rw [List.map_append, List.zip_append (by simp [hn])]
    rw [hz] at hf
    have hf1 : ∀ w ∈ w1, FitsType cv c.type w.2 := by
      intro w hw
      obtain ⟨i, hi, rfl⟩ := List.getElem_of_mem hw
      have : (c.type, (w1[i]).2) ∈ (List.replicate c.count c.type).zip (w1.map (·.2)) := by
        rw [List.mem_iff_getElem]
        exact ⟨i, by simp; omega, by simp⟩
      exact hf _ (List.mem_append_left _ this)
    have hfit2 : Fit cv (types cs) (w2.map (·.2)) := by
      refine ⟨?_, fun p hp => hf p (List.mem_append_right _ hp)⟩
      simp only [List.length_append] at hl
      simp; omega
    have h1 := readCol_words cv c.type c.count w1 (wordsText w2 ++ r) hn hs1 hf1 (words_after hs2 hr)
    have h2 := readValues_words cv cs w2 r hs2 hfit2 hr
    rw [wordsText_append, List.append_assoc, readValues, h1]
    simp only [h2]
    congr 1
    simp only [buffers, List.map_cons, chunks, types_cons]
    rw [List.map_append, List.zipWith_append (by simp [hn]), zipWith_replicate _ _ _ _ (by simp [hn])]
    rw [List.take_left' (by simp [hn]), List.drop_left' (by simp [hn])]
    simp

end Verif.DataLine
