import Verif.Spec.Params
import Verif.Lemmas.CText
import Mathlib.Tactic.Linarith
/-
Lemmas for C08 and C09: decoding of value lists.
-/
namespace Verif.Params
open Verif.CText Verif.Tables

theorem legal_word_chars {α : Type} {parse : List Char → Option α} {value : List Char → α} {it : Item}
    (h : it.Legal parse value) : it.word ≠ [] ∧ ∀ c ∈ it.word, isSep c = false := by
  obtain ⟨h1, h2, h3, -, -⟩ := h
  have ht : ∀ c ∈ it.text, isSep c = false := by
    intro c hc
    have := h3 c hc
    simp only [List.mem_cons, not_or, List.not_mem_nil, not_false_eq_true, and_true] at this
    simp [isSep, this]
  have hdig : ∀ c, isDigit c = true → isSep c = false := by
    intro c hc
    rw [isDigit_mem] at hc
    simp only [digits, List.mem_cons, List.not_mem_nil, or_false] at hc
    rcases hc with h | h | h | h | h | h | h | h | h | h <;> subst h <;> decide
  unfold Item.word
  split
  · exact ⟨h2, ht⟩
  · rename_i n _
    refine ⟨by simp, fun c hc => ?_⟩
    simp only [List.mem_append, List.mem_cons] at hc
    rcases hc with hc | hc | hc
    · exact hdig c (decimal_digits n c hc)
    · subst hc; decide
    · exact ht c hc

theorem decodeToken_legal {α : Type} {parse : List Char → Option α} {value : List Char → α} {it : Item}
    (h : it.Legal parse value) :
    decodeToken parse it.word = .ok (it.count.getD 1, value it.text) := by
  obtain ⟨h1, h2, h3, h4, h5⟩ := h
  have hstar : '*' ∉ it.text := fun hc => by simpa using h3 _ hc
  unfold decodeToken
  rw [if_neg (by unfold MAXTOKLEN; omega)]
  cases hcnt : it.count with
  | none =>
    have hw : it.word = it.text := by simp [Item.word, hcnt]
    rw [hw, splitLast_none.2 hstar]
    simp [h4]
  | some n =>
    have hw : it.word = decimal n ++ '*' :: it.text := by simp [Item.word, hcnt]
    have hn : n ≠ 0 := fun e => h1 (by rw [hcnt, e])
    have hst := strtol_decimal n (r := []) (by simp)
    rw [List.append_nil] at hst
    rw [hw, splitLast_some _ hstar]
    simp only [hst]
    rw [if_neg (by simp [hn])]
    simp [h4]

theorem decodeLoop_legal {α : Type} {parse : List Char → Option α} {value : List Char → α} (size : Nat)
    (its : List Item) (h : ∀ it ∈ its, it.Legal parse value) (buf : List α) (hb : buf.length ≤ size) :
    decodeLoop parse size (its.map Item.word) buf =
      .ok ((buf ++ its.flatMap (Item.expand value)).take size) := by
  induction its generalizing buf with
  | nil => simp [decodeLoop, List.take_of_length_le hb]
  | cons it its ih =>
    simp only [List.map_cons, decodeLoop, decodeToken_legal (h it (by simp)), List.flatMap_cons]
    have hexp : it.expand value = List.replicate (it.count.getD 1) (value it.text) := rfl
    rw [ih (fun i hi => h i (List.mem_cons_of_mem _ hi))]
    · congr 1
      rw [hexp]
      generalize it.count.getD 1 = n
      generalize its.flatMap (Item.expand value) = L
      by_cases hc : buf.length + n > size
      · rw [if_pos hc]
        rw [List.take_left' (by simp; omega), List.take_append, List.take_of_length_le hb,
          List.take_append, List.take_replicate, List.length_replicate,
          show size - buf.length - n = 0 by omega, Nat.min_eq_left (by omega)]
        simp
      · rw [if_neg hc, List.append_assoc]
    · split <;> simp <;> omega

theorem cycleFill_spec {α : Type} {L : List α} (hL : L ≠ []) : ∀ (n : Nat) (buf : List α) (is : Nat),
    L.length ≤ buf.length → (∀ i < buf.length, buf[i]? = L[i % L.length]?) →
    is = buf.length % L.length →
    ∃ out, cycleFill L.length n is buf = .ok out ∧ out.length = buf.length + n ∧
      ∀ i < out.length, out[i]? = L[i % L.length]?
  | 0, buf, is, _, h, _ => ⟨buf, rfl, rfl, h⟩
  | n + 1, buf, is, hlen, h, hs => by
    have hpos : 0 < L.length := List.length_pos_iff.2 hL
    have hisL : is < L.length := by rw [hs]; exact Nat.mod_lt _ hpos
    have hget := h is (by omega)
    rw [Nat.mod_eq_of_lt hisL, List.getElem?_eq_getElem hisL] at hget
    unfold cycleFill
    rw [hget]
    obtain ⟨out, h1, h2, h3⟩ := cycleFill_spec hL n (buf ++ [L[is]])
      (if is + 1 = L.length then 0 else is + 1) (by simp; omega)
      (by
        intro i hi
        simp only [List.length_append, List.length_cons, List.length_nil] at hi
        by_cases hib : i < buf.length
        · rw [List.getElem?_append_left hib]; exact h i hib
        · have : i = buf.length := by omega
          subst this
          rw [List.getElem?_append_right (Nat.le_refl _)]
          simp only [Nat.sub_self, List.getElem?_cons_zero]
          rw [← hs, List.getElem?_eq_getElem hisL])
      (by
        simp only [List.length_append, List.length_cons, List.length_nil]
        rw [Nat.add_mod, ← hs]
        by_cases hw : is + 1 = L.length
        · rw [if_pos hw]
          by_cases h1 : L.length = 1
          · simp [h1, Nat.mod_one]
          · rw [Nat.mod_eq_of_lt (a := 1) (by omega), hw, Nat.mod_self]
        · rw [if_neg hw, Nat.mod_eq_of_lt (a := 1) (by omega), Nat.mod_eq_of_lt (by omega)])
    exact ⟨out, h1, by rw [h2]; simp; omega, h3⟩

theorem expand_ne_nil {α : Type} {parse : List Char → Option α} {value : List Char → α}
    {its : List Item} (hne : its ≠ []) (h : ∀ it ∈ its, it.Legal parse value) :
    its.flatMap (Item.expand value) ≠ [] := by
  obtain ⟨it, its, rfl⟩ := List.exists_cons_of_ne_nil hne
  have := (h it (by simp)).1
  simp only [List.flatMap_cons]
  intro hc
  rw [List.append_eq_nil_iff] at hc
  have h1 := hc.1
  unfold Item.expand at h1
  rw [List.replicate_eq_nil_iff] at h1
  cases hcnt : it.count with
  | none => simp [hcnt] at h1
  | some n => simp only [hcnt, Option.getD_some] at h1; exact this (by rw [hcnt, h1])

theorem strToVals_words {α : Type} {parse : List Char → Option α} {value : List Char → α}
    {its : List Item} (hne : its ≠ []) (h : ∀ it ∈ its, it.Legal parse value) {enc : List Char}
    (henc : strtok isSep enc = its.map Item.word) (size : Nat) :
    ∃ out, strToVals parse enc size = .ok out ∧ out.length = size ∧
      ∀ i < size, out[i]? = (its.flatMap (Item.expand value))[i % (its.flatMap (Item.expand value)).length]? := by
  unfold strToVals
  rw [henc, decodeLoop_legal size its h [] (by simp)]
  simp only [List.nil_append]
  have hL := expand_ne_nil hne h
  generalize its.flatMap (Item.expand value) = L at hL
  by_cases hc : size ≤ L.length
  · have hlen : (L.take size).length = size := by simp [hc]
    refine ⟨L.take size, ?_, hlen, ?_⟩
    · simp [hlen, cycleFill]
    · intro i hi
      rw [Nat.mod_eq_of_lt (by omega), List.getElem?_take_of_lt hi]
  · rw [List.take_of_length_le (by omega)]
    obtain ⟨out, h1, h2, h3⟩ := cycleFill_spec hL (size - L.length) L 0 (Nat.le_refl _)
      (fun i hi => by rw [Nat.mod_eq_of_lt hi]) (by simp)
    have : out.length = size := by omega
    exact ⟨out, h1, this, fun i hi => h3 i (by omega)⟩

/-! Rejection -/

theorem strtol_split (s : List Char) (hpos : 0 < (strtol s).1) (hend : (strtol s).2 = []) :
    LegalCount s := by
  unfold strtol at hpos hend
  have hsplit : s = s.takeWhile isSpace ++ s.dropWhile isSpace := List.takeWhile_append_dropWhile.symm
  generalize hu : s.dropWhile isSpace = t at *
  have hws : ∀ c ∈ s.takeWhile isSpace, isSpace c = true := fun c hc => mem_takeWhile hc
  have key : ∀ (sg u : List Char), t = sg ++ u → (sg = [] ∨ sg = ['+']) → u ≠ [] →
      (∀ c, u.head? = some c → isDigit c = true) → 0 < (readDigits 0 u).1 → (readDigits 0 u).2 = [] →
      LegalCount s := by
    intro sg u ht hsg hu0 _ hp he
    have hsp : ∃ ds r, u = ds ++ r ∧ (∀ c ∈ ds, isDigit c = true) ∧
        (∀ c, r.head? = some c → isDigit c = false) := by
      refine ⟨u.takeWhile isDigit, u.dropWhile isDigit, List.takeWhile_append_dropWhile.symm,
        fun c hc => mem_takeWhile hc, fun c hc => ?_⟩
      have := List.head?_dropWhile_not isDigit u
      rw [hc] at this
      simpa using this
    obtain ⟨ds, r, rfl, hds, hr⟩ := hsp
    rw [readDigits_append hds 0 hr] at hp he
    simp only at he
    subst he
    simp only [Nat.zero_mul, Nat.zero_add] at hp
    refine ⟨s.takeWhile isSpace, sg, ds, ?_, hws, hsg, by simpa using hu0, ?_, hp⟩
    · rw [List.append_nil] at ht
      rw [List.append_assoc, ← ht]; exact hsplit
    · intro c hc; exact (isDigit_mem c).1 (hds c hc)
  cases hm : readSign t with
  | mk neg u =>
  rw [hm] at hpos hend
  simp only [strtolBody] at hpos hend
  cases u with
  | nil => simp at hpos
  | cons c u =>
    by_cases hd : isDigit c = true
    · simp only [hd, if_true] at hpos hend
      have hneg : neg = false := by
        cases neg with
        | false => rfl
        | true => simp at hpos; omega
      subst hneg
      simp only [Bool.false_eq_true, if_false] at hpos
      have hp : 0 < (readDigits 0 (c :: u)).1 := by exact_mod_cast hpos
      unfold readSign at hm
      split at hm
      · simp at hm
      · simp only [Prod.mk.injEq, true_and] at hm
        exact key ['+'] (c :: u) (by rw [hm]; rfl) (Or.inr rfl) (by simp) (by simpa using hd) hp hend
      · simp only [Prod.mk.injEq, true_and] at hm
        exact key [] (c :: u) (by rw [hm]; rfl) (Or.inl rfl) (by simp) (by simpa using hd) hp hend
    · simp [hd] at hpos

theorem decodeToken_reject {α : Type} {parse : List Char → Option α} {tok cnt v : List Char}
    (hlen : tok.length < 128) (hs : splitLast '*' tok = some (cnt, v)) (hbad : ¬ LegalCount cnt) :
    decodeToken parse tok = .err := by
  unfold decodeToken
  rw [if_neg (by unfold MAXTOKLEN; omega), hs]
  simp only
  rw [if_pos]
  by_contra hc
  rw [not_or, not_le, ne_eq, not_not] at hc
  exact hbad (strtol_split cnt hc.1 hc.2)

theorem decodeToken_no_ub {α : Type} {parse : List Char → Option α} {tok : List Char}
    (hlen : tok.length < 128) : decodeToken parse tok ≠ .ub := by
  unfold decodeToken
  rw [if_neg (by unfold MAXTOKLEN; omega)]
  split
  · simp only
    split <;> simp
  · simp only
    split
    · simp
    · split <;> simp

theorem decodeLoop_reject {α : Type} {parse : List Char → Option α} {size : Nat} {tok : List Char} :
    ∀ {toks : List (List Char)} {buf : List α}, (∀ t ∈ toks, t.length < 128) → tok ∈ toks →
    decodeToken parse tok = .err → decodeLoop parse size toks buf = .err
  | [], _, _, hm, _ => absurd hm (by simp)
  | t :: ts, buf, hl, hm, he => by
    unfold decodeLoop
    cases hd : decodeToken parse t with
    | ub => exact absurd hd (decodeToken_no_ub (hl t (by simp)))
    | err => rfl
    | ok rv =>
      have : tok ∈ ts := by
        rcases List.mem_cons.1 hm with h | h
        · subst h; rw [he] at hd; exact absurd hd (by simp)
        · exact h
      exact decodeLoop_reject (fun t ht => hl t (List.mem_cons_of_mem _ ht)) this he

/-! Length of any successful decoding -/

theorem cycleFill_length {α : Type} {nd : Nat} : ∀ {n is : Nat} {buf out : List α},
    cycleFill nd n is buf = .ok out → out.length = buf.length + n
  | 0, _, buf, out, h => by simp [cycleFill] at h; simp [h]
  | n + 1, is, buf, out, h => by
    unfold cycleFill at h
    split at h
    · simp at h
    · have := cycleFill_length h
      simp at this; omega

theorem decodeLoop_length {α : Type} {parse : List Char → Option α} {size : Nat} :
    ∀ {toks : List (List Char)} {buf out : List α}, buf.length ≤ size →
    decodeLoop parse size toks buf = .ok out → out.length ≤ size
  | [], buf, out, hb, h => by simp [decodeLoop] at h; subst h; exact hb
  | t :: ts, buf, out, hb, h => by
    unfold decodeLoop at h
    split at h
    · simp at h
    · simp at h
    · refine decodeLoop_length ?_ h
      simp only [List.length_append, List.length_replicate]
      split <;> omega

theorem strToVals_length {α : Type} {parse : List Char → Option α} {enc : List Char} {size : Nat}
    {out : List α} (h : strToVals parse enc size = .ok out) : out.length = size := by
  unfold strToVals at h
  split at h
  · simp at h
  · simp at h
  · rename_i buf hb
    have h1 := decodeLoop_length (Nat.zero_le _) hb
    have h2 := cycleFill_length h
    omega

end Verif.Params
