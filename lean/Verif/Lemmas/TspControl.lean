import Verif.Spec.TspControl
import Mathlib.Data.List.Basic
import Mathlib.Data.List.DropRight
/-
Lemmas for the control file of TSPROC.
-/
namespace Verif.TspCtl

open Verif.Tsp (lower)

theorem isSep_iff {c : Nat} : isSep c = true ↔ c = 32 ∨ c = 44 ∨ c = 9 := by
  unfold isSep
  simp [or_assoc]

theorem drop_skip {p : Nat → Bool} {a b : List Nat} (ha : ∀ c ∈ a, p c = true) : (a ++ b).dropWhile p = b.dropWhile p := by
  induction a with
  | nil => rfl
  | cons x a ih =>
    rw [List.cons_append, List.dropWhile_cons_of_pos (ha x (by simp))]
    exact ih fun c hc => ha c (by simp [hc])

theorem drop_stop {p : Nat → Bool} {w b : List Nat} (hw : w ≠ []) (h : ∀ c ∈ w, p c = false) : (w ++ b).dropWhile p = w ++ b := by
  cases w with
  | nil => exact absurd rfl hw
  | cons x w => rw [List.cons_append, List.dropWhile_cons_of_neg (by simp [h x (by simp)])]

theorem take_word {p : Nat → Bool} {w b : List Nat} (h : ∀ c ∈ w, p c = true) (hb : b = [] ∨ ∃ c t, b = c :: t ∧ p c = false) :
    (w ++ b).takeWhile p = w := by
  induction w with
  | nil =>
    rcases hb with rfl | ⟨c, t, rfl, hc⟩
    · rfl
    · simp [List.takeWhile_cons, hc]
  | cons x w ih =>
    rw [List.cons_append, List.takeWhile_cons_of_pos (h x (by simp)), ih fun c hc => h c (by simp [hc])]

theorem trimR_append (a b : List Nat) : trimR (a ++ b) = if trimR b = [] then trimR a else a ++ trimR b := by
  unfold trimR
  rw [List.reverse_append, List.dropWhile_append]
  by_cases h : b.reverse.dropWhile (· == 32) = []
  · simp [h]
  · simp [h, List.isEmpty_iff]

theorem trimR_word {w : List Nat} (h : ∀ c ∈ w, c ≠ 32) : trimR w = w := by
  unfold trimR
  rcases List.eq_nil_or_concat w with rfl | ⟨w', c, rfl⟩
  · rfl
  · have : c ≠ 32 := h c (by simp)
    simp [this]

theorem trimR_blank {l : List Nat} (h : ∀ c ∈ l, c = 32) : trimR l = [] := by
  unfold trimR
  have : l.reverse.dropWhile (· == 32) = [] := by
    rw [List.dropWhile_eq_nil_iff]
    intro c hc
    simp [h c (List.mem_reverse.1 hc)]
  simp [this]

theorem trimR_mem {l : List Nat} {c : Nat} (h : c ∈ trimR l) : c ∈ l := by
  unfold trimR at h
  have := (List.dropWhile_sublist _).subset (List.mem_reverse.1 h)
  simpa using this

/-- What is left is a beginning of the list. -/
theorem trimR_prefix (l : List Nat) : ∃ b, l = trimR l ++ b := by
  refine ⟨(l.reverse.takeWhile (· == 32)).reverse, ?_⟩
  unfold trimR
  rw [← List.reverse_append, List.takeWhile_append_dropWhile, List.reverse_reverse]

theorem trimR_tail {t : List Nat} (h : t = [] ∨ ∃ c t', t = c :: t' ∧ (c = 32 ∨ c = 44 ∨ c = 9)) :
    trimR t = [] ∨ ∃ c t', trimR t = c :: t' ∧ isSep c = true := by
  obtain ⟨b, hb⟩ := trimR_prefix t
  rcases h with rfl | ⟨c, t', rfl, hc⟩
  · left; rfl
  · cases h' : trimR (c :: t') with
    | nil => left; rfl
    | cons d u =>
      right
      rw [h', List.cons_append] at hb
      injection hb with h1 h2
      exact ⟨d, u, rfl, isSep_iff.2 (h1 ▸ hc)⟩

theorem word_sep {w : List Nat} (h : Word w) : ∀ c ∈ w, isSep c = false := by
  intro c hc
  have := h.2 c hc
  by_contra hn
  rw [Bool.not_eq_false, isSep_iff] at hn
  omega

/-- A well-formed line read by the model. -/
theorem entry_cut {l w v : List Nat} (h : Entry l w v) :
    cut l = trimR l ∧ noise l = false ∧ ∃ t, split2 (cut l) = some (w, v ++ t) ∧ (t = [] ∨ ∃ c t', t = c :: t' ∧ isSep c = true) := by
  obtain ⟨s1, s2, t, rfl, hlen, hh, hs1, hw, hs2, hs2n, hv, ht⟩ := h
  have hcut : cut (s1 ++ w ++ s2 ++ v ++ t) = trimR (s1 ++ w ++ s2 ++ v ++ t) := by
    unfold cut
    rw [List.take_of_length_le hlen]
  have htr : trimR (s1 ++ w ++ s2 ++ v ++ t) = s1 ++ (w ++ (s2 ++ (v ++ trimR t))) := by
    rw [trimR_append]
    have hv' : trimR v = v := trimR_word fun c hc => (hv.2 c hc).1
    split
    · rename_i h0
      rw [trimR_append, hv', if_neg hv.1, h0]
      simp
    · simp
  have hd1 : ∀ c ∈ s1, isSep c = true := fun c hc => isSep_iff.2 (hs1 c hc)
  have hd2 : ∀ c ∈ s2, isSep c = true := fun c hc => isSep_iff.2 (hs2 c hc)
  have hw' := word_sep hw
  have hv' := word_sep hv
  refine ⟨hcut, ?_, trimR t, ?_, trimR_tail ht⟩
  · unfold noise
    rw [hcut]
    have hne : trimR (s1 ++ w ++ s2 ++ v ++ t) ≠ [] := by
      rw [htr]
      have := hw.1
      simp [this]
    obtain ⟨b, hb⟩ := trimR_prefix (s1 ++ w ++ s2 ++ v ++ t)
    have hhd : (trimR (s1 ++ w ++ s2 ++ v ++ t)).head? ≠ some 35 := by
      cases h' : trimR (s1 ++ w ++ s2 ++ v ++ t) with
      | nil => simp
      | cons d u =>
        rw [h'] at hb
        rw [hb] at hh
        simpa using hh
    simp only [hne, hhd, decide_false, Bool.or_self]
  · rw [hcut, htr]
    unfold split2
    simp only
    have e1 : (s1 ++ (w ++ (s2 ++ (v ++ trimR t)))).dropWhile isSep = w ++ (s2 ++ (v ++ trimR t)) := by
      rw [drop_skip hd1, drop_stop hw.1 hw']
    have e2 : (w ++ (s2 ++ (v ++ trimR t))).dropWhile (!isSep ·) = s2 ++ (v ++ trimR t) := by
      rw [drop_skip (by intro c hc; simp [hw' c hc])]
      exact drop_stop hs2n (by intro c hc; simp [hd2 c hc])
    have e3 : (s2 ++ (v ++ trimR t)).dropWhile isSep = v ++ trimR t := by
      rw [drop_skip hd2, drop_stop hv.1 hv']
    have e4 : (w ++ (s2 ++ (v ++ trimR t))).takeWhile (!isSep ·) = w := by
      apply take_word (by intro c hc; simp [hw' c hc])
      cases s2 with
      | nil => exact absurd rfl hs2n
      | cons c s2 => exact Or.inr ⟨c, _, rfl, by simp [hd2 c (by simp)]⟩
    rw [e1, e2, e3, e4, if_neg (by simp [hv.1])]

theorem noise_blank {l : List Nat} (h : Blank l) : noise l = true := by
  unfold noise cut
  rcases h with h | h
  · rw [trimR_blank fun c hc => h c (List.mem_of_mem_take hc)]
    simp
  · cases l with
    | nil => simp at h
    | cons c t =>
      simp only [List.head?_cons, Option.some.injEq] at h
      subst h
      have : trimR ((35 :: t).take 400) = 35 :: trimR (t.take 399) := by
        show trimR ([35] ++ t.take 399) = _
        rw [trimR_append]
        split
        · rename_i h0
          rw [h0]
          rfl
        · rfl
      rw [this]
      simp

theorem key_iff {w : List Nat} {k : List Nat} (hk : k.length < 30) : key w = k ↔ w.map upper = k := by
  unfold key
  constructor
  · intro h
    by_cases hl : (w.map upper).length ≤ 30
    · rwa [List.take_of_length_le hl] at h
    · have := congrArg List.length h
      rw [List.length_take] at this
      omega
  · rintro rfl
    exact List.take_of_length_le (by omega)

theorem tail_take {v t : List Nat} (hv : Word v) (ht : t = [] ∨ ∃ c t', t = c :: t' ∧ isSep c = true) :
    (v ++ t).takeWhile (!isSep ·) = v := by
  apply take_word (by intro c hc; simp [word_sep hv c hc])
  rcases ht with h | ⟨c, t', h, hc⟩
  · exact Or.inl h
  · exact Or.inr ⟨c, t', h, by simp [hc]⟩

theorem getText_plain {v t : List Nat} (hv : Word v) (hp : Plain v) (ht : t = [] ∨ ∃ c t', t = c :: t' ∧ isSep c = true) :
    getText (v ++ t) = some v := by
  have hT := tail_take hv ht
  cases v with
  | nil => exact absurd rfl hv.1
  | cons q v =>
    have hq := hp q (by simp)
    rw [List.cons_append] at hT ⊢
    unfold getText
    simp only
    rw [if_neg (by omega), hT, if_neg]
    rintro (h | h)
    · exact (hp _ (List.mem_of_getLast? h)).1 rfl
    · exact (hp _ (List.mem_of_getLast? h)).2 rfl

theorem field_word {v : List Nat} (hv : Word v) : field v = v.take 25 := by
  unfold field
  have h : ∀ c ∈ v.take 25, c ≠ 32 := fun c hc => (hv.2 c (List.mem_of_mem_take hc)).1
  have : (v.take 25).dropWhile (· == 32) = v.take 25 := by
    have := drop_stop (p := (· == 32)) (w := v.take 25) (b := []) (by
      have := hv.1
      intro h'
      apply this
      cases v with
      | nil => rfl
      | cons a b => simp at h') (by intro c hc; simp [h c hc])
    simpa using this
  rw [this, trimR_word h]

theorem contextOf_plain {v t : List Nat} (hv : Word v) (hp : Plain v) (ht : t = [] ∨ ∃ c t', t = c :: t' ∧ isSep c = true) :
    contextOf (v ++ t) = some ((v.map lower).take 25) := by
  unfold contextOf
  rw [getText_plain hv hp ht]
  simp only
  rw [field_word hv, if_neg, List.map_take]
  intro h
  exact (hv.2 32 (List.mem_of_mem_take h)).1 rfl

/-! ### Reading of pieces -/

theorem is_entry {p : Piece} {k : String} (h : p.Is k) : Entry p.line p.key p.value := h.2.1

theorem entry_word {l w v : List Nat} (h : Entry l w v) : Word w ∧ Word v := by
  obtain ⟨_, _, _, _, _, _, _, hw, _, _, hv, _⟩ := h
  exact ⟨hw, hv⟩

theorem text_cons (p : Piece) (ps : List Piece) : text (p :: ps) = p.before ++ p.line :: text ps := by
  unfold text
  simp

theorem text_append (ps qs : List Piece) : text (ps ++ qs) = text ps ++ text qs := by
  unfold text
  simp

theorem contextsOf_skip {b ls : List (List Nat)} {acc : List (List Nat)} (h : ∀ n ∈ b, Blank n) :
    contextsOf (b ++ ls) acc = contextsOf ls acc := by
  induction b with
  | nil => rfl
  | cons x b ih =>
    rw [List.cons_append, contextsOf, if_pos (noise_blank (h x (by simp)))]
    exact ih fun n hn => h n (by simp [hn])

theorem findEnd_skip {b ls : List (List Nat)} (h : ∀ n ∈ b, Blank n) : findEnd (b ++ ls) = findEnd ls := by
  induction b with
  | nil => rfl
  | cons x b ih =>
    rw [List.cons_append, findEnd, if_pos (noise_blank (h x (by simp)))]
    exact ih fun n hn => h n (by simp [hn])

theorem bodyOf_skip {b ls : List (List Nat)} {acc : List (List Nat)} (h : ∀ n ∈ b, Blank n) :
    bodyOf (b ++ ls) acc = bodyOf ls acc := by
  induction b with
  | nil => rfl
  | cons x b ih =>
    rw [List.cons_append, bodyOf, if_pos (noise_blank (h x (by simp)))]
    exact ih fun n hn => h n (by simp [hn])

theorem settingsLoop_skip {ov : List Nat} {b ls : List (List Nat)} {c : List Nat} {d : Option Nat} (h : ∀ n ∈ b, Blank n) :
    settingsLoop ov (b ++ ls) c d = settingsLoop ov ls c d := by
  induction b with
  | nil => rfl
  | cons x b ih =>
    rw [List.cons_append, settingsLoop, if_pos (noise_blank (h x (by simp)))]
    exact ih fun n hn => h n (by simp [hn])

theorem nextBlock_skip {s : Bool} {m : Nat} {b ls : List (List Nat)} (h : ∀ n ∈ b, Blank n) :
    nextBlock s m (b ++ ls) = nextBlock s m ls := by
  induction b with
  | nil => rfl
  | cons x b ih =>
    rw [List.cons_append, nextBlock, if_pos (noise_blank (h x (by simp)))]
    exact ih fun n hn => h n (by simp [hn])

theorem nextBlock_blank {s : Bool} {m : Nat} {b : List (List Nat)} (h : ∀ n ∈ b, Blank n) : nextBlock s m b = .eof := by
  have := nextBlock_skip (s := s) (m := m) (ls := []) h
  rw [List.append_nil] at this
  exact this

theorem key_is {p : Piece} {k : String} (h : p.Is k) (hk : (codes k).length < 30) : key p.key = codes k := (key_iff hk).2 h.2.2

theorem codes_ne : codes "CONTEXT" ≠ codes "END" ∧ codes "DATE_FORMAT" ≠ codes "CONTEXT" ∧ codes "END" ≠ codes "DATE_FORMAT" := by
  decide +kernel

theorem codes_len : (codes "CONTEXT").length < 30 ∧ (codes "END").length < 30 ∧ (codes "DATE_FORMAT").length < 30 ∧
    (codes "START").length < 30 ∧ (codes "SETTINGS").length < 30 := by
  decide +kernel

/-- CONTEXT lines add their contexts. -/
theorem contextsOf_run {ps : List Piece} (h : ∀ p ∈ ps, p.Is "CONTEXT" ∧ Plain p.value) {acc ls : List (List Nat)}
    (hl : acc.length + ps.length ≤ 5) :
    contextsOf (text ps ++ ls) acc = contextsOf ls (acc ++ ps.map fun p => (p.value.map lower).take 25) := by
  induction ps generalizing acc with
  | nil => simp [text]
  | cons p ps ih =>
    obtain ⟨hi, hp⟩ := h p (by simp)
    obtain ⟨hc, hn, t, hsp, ht⟩ := entry_cut (is_entry hi)
    rw [List.length_cons] at hl
    rw [text_cons, List.append_assoc, contextsOf_skip hi.1, List.cons_append, contextsOf, hn]
    simp only [Bool.false_eq_true, if_false, hsp]
    rw [if_pos (key_is hi codes_len.1), if_neg (by omega), contextOf_plain (entry_word (is_entry hi)).2 hp ht]
    simp only
    rw [ih (fun q hq => h q (by simp [hq])) (by simp; omega)]
    simp

/-- The first line with another keyword ends the contexts. -/
theorem contextsOf_stop {p : Piece} (hb : ∀ n ∈ p.before, Blank n) (he : Entry p.line p.key p.value)
    (hk : p.key.map upper ≠ codes "CONTEXT") {acc ls : List (List Nat)} :
    contextsOf (p.before ++ p.line :: ls) acc = some (acc, p.line, ls) := by
  obtain ⟨hc, hn, t, hsp, ht⟩ := entry_cut he
  rw [contextsOf_skip hb, contextsOf, hn]
  simp only [Bool.false_eq_true, if_false, hsp]
  rw [if_neg (mt (key_iff codes_len.1).1 hk)]

theorem bodyOf_other {p : Piece} (h : p.Other) {acc ls : List (List Nat)} :
    bodyOf (p.line :: ls) acc = bodyOf ls (acc ++ [trimR p.line]) := by
  obtain ⟨hc, hn, t, hsp, ht⟩ := entry_cut h.2.1
  rw [bodyOf, hn]
  simp only [Bool.false_eq_true, if_false, hsp]
  rw [if_neg (mt (key_iff codes_len.1).1 h.2.2.1), if_neg (mt (key_iff codes_len.2.1).1 h.2.2.2), hc]

theorem bodyOf_run {ps : List Piece} (h : ∀ p ∈ ps, p.Other) {acc ls : List (List Nat)} :
    bodyOf (text ps ++ ls) acc = bodyOf ls (acc ++ ps.map fun p => trimR p.line) := by
  induction ps generalizing acc with
  | nil => simp [text]
  | cons p ps ih =>
    rw [text_cons, List.append_assoc, bodyOf_skip (h p (by simp)).1, List.cons_append, bodyOf_other (h p (by simp)),
      ih fun q hq => h q (by simp [hq])]
    simp

theorem bodyOf_end {p : Piece} (h : p.Is "END") {acc ls : List (List Nat)} : bodyOf (text [p] ++ ls) acc = some (acc, ls) := by
  obtain ⟨hc, hn, t, hsp, ht⟩ := entry_cut (is_entry h)
  rw [text_cons, List.append_assoc, bodyOf_skip h.1, List.cons_append, bodyOf, hn]
  simp only [Bool.false_eq_true, if_false, hsp]
  rw [if_neg, if_pos (key_is h codes_len.2.1)]
  · simp [text]
  · rw [key_is h codes_len.2.1]
    exact codes_ne.1.symm

/-- `find_end` passes over a line with another keyword. -/
theorem findEnd_pass {p : Piece} (hb : ∀ n ∈ p.before, Blank n) (he : Entry p.line p.key p.value)
    (hk : p.key.map upper ≠ codes "END") {ls : List (List Nat)} : findEnd (p.before ++ p.line :: ls) = findEnd ls := by
  obtain ⟨hc, hn, t, hsp, ht⟩ := entry_cut he
  rw [findEnd_skip hb, findEnd, hn]
  simp only [Bool.false_eq_true, if_false, hsp]
  rw [if_neg (mt (key_iff codes_len.2.1).1 hk)]

theorem findEnd_run {ps : List Piece} (h : ∀ p ∈ ps, (∀ n ∈ p.before, Blank n) ∧ Entry p.line p.key p.value ∧
    p.key.map upper ≠ codes "END") {ls : List (List Nat)} : findEnd (text ps ++ ls) = findEnd ls := by
  induction ps with
  | nil => simp [text]
  | cons p ps ih =>
    obtain ⟨h1, h2, h3⟩ := h p (by simp)
    rw [text_cons, List.append_assoc, List.cons_append, findEnd_pass h1 h2 h3, ih fun q hq => h q (by simp [hq])]

theorem findEnd_end {p : Piece} (h : p.Is "END") {ls : List (List Nat)} : findEnd (text [p] ++ ls) = some ls := by
  obtain ⟨hc, hn, t, hsp, ht⟩ := entry_cut (is_entry h)
  rw [text_cons, List.append_assoc, findEnd_skip h.1, List.cons_append, findEnd, hn]
  simp only [Bool.false_eq_true, if_false, hsp]
  rw [if_pos (key_is h codes_len.2.1)]
  simp [text]

theorem titles_lookup : ∀ p ∈ titles, titleNo p.1 = some p.2 ∧ p.1.length < 30 := by decide +kernel

/-- The header of a block after SETTINGS. -/
theorem nextBlock_start {s : Section} (h : s.Head) {m : Nat} {ls : List (List Nat)} :
    nextBlock true m (s.start.before ++ s.start.line :: ls) = .got s.no ls := by
  obtain ⟨hs, ht, hno, _⟩ := h
  obtain ⟨hc, hn, t, hsp, htl⟩ := entry_cut (is_entry hs)
  obtain ⟨hl, hlen⟩ := titles_lookup _ ht
  rw [nextBlock_skip hs.1, nextBlock, hn]
  simp only [Bool.false_eq_true, if_false, hsp]
  rw [if_neg (by rw [key_is hs codes_len.2.2.2.1]; simp), tail_take (entry_word (is_entry hs)).2 htl, (key_iff hlen).2 rfl, hl]
  simp [hno]

theorem active_iff {ctx : List Nat} {s : Section} :
    active ctx (s.ctxs.map fun p => (p.value.map lower).take 25) = true ↔ s.For ctx := by
  unfold active Section.For
  rw [Bool.or_eq_true, decide_eq_true_eq, decide_eq_true_eq, List.mem_map, List.mem_map]
  constructor
  · rintro (⟨p, hp, h⟩ | ⟨p, hp, h⟩)
    · exact ⟨p, hp, Or.inl h⟩
    · refine ⟨p, hp, Or.inr ?_⟩
      by_cases hl : (p.value.map lower).length ≤ 25
      · rwa [List.take_of_length_le hl] at h
      · have := congrArg List.length h
        have h3 : (codes "all").length = 3 := by decide
        rw [List.length_take, h3] at this
        omega
  · rintro ⟨p, hp, h | h⟩
    · exact Or.inl ⟨p, hp, h⟩
    · refine Or.inr ⟨p, hp, ?_⟩
      rw [h]
      decide

/-! ### Lengths -/

theorem contextsOf_length {ls acc cs : List (List Nat)} {l : List Nat} {r : List (List Nat)} (h : contextsOf ls acc = some (cs, l, r)) :
    r.length < ls.length := by
  induction ls generalizing acc with
  | nil => simp [contextsOf] at h
  | cons x ls ih =>
    rw [contextsOf] at h
    rw [List.length_cons]
    split at h
    · have := ih h; omega
    · split at h
      · exact absurd h (by simp)
      · split at h
        · split at h
          · exact absurd h (by simp)
          · split at h
            · exact absurd h (by simp)
            · have := ih h; omega
        · injection h with h
          injection h with h1 h
          injection h with h2 h
          subst h
          omega

theorem findEnd_length {ls r : List (List Nat)} (h : findEnd ls = some r) : r.length < ls.length := by
  induction ls with
  | nil => simp [findEnd] at h
  | cons x ls ih =>
    rw [findEnd] at h
    rw [List.length_cons]
    split at h
    · have := ih h; omega
    · split at h
      · exact absurd h (by simp)
      · split at h
        · injection h with h
          subst h
          omega
        · have := ih h; omega

theorem bodyOf_length {ls acc b r : List (List Nat)} (h : bodyOf ls acc = some (b, r)) : r.length < ls.length := by
  induction ls generalizing acc with
  | nil => simp [bodyOf] at h
  | cons x ls ih =>
    rw [bodyOf] at h
    rw [List.length_cons]
    split at h
    · have := ih h; omega
    · split at h
      · exact absurd h (by simp)
      · split at h
        · exact absurd h (by simp)
        · split at h
          · injection h with h
            injection h with h1 h
            subst h
            omega
          · have := ih h; omega

theorem settingsLoop_length {ov : List Nat} {ls : List (List Nat)} {c : List Nat} {d : Option Nat} {c' : List Nat} {d' : Option Nat}
    {r : List (List Nat)} (h : settingsLoop ov ls c d = some (c', d', r)) : r.length < ls.length := by
  induction ls generalizing c d with
  | nil => simp [settingsLoop] at h
  | cons x ls ih =>
    rw [settingsLoop] at h
    rw [List.length_cons]
    split at h
    · have := ih h; omega
    · split at h
      · exact absurd h (by simp)
      · split at h
        · split at h
          · exact absurd h (by simp)
          · split at h
            · exact absurd h (by simp)
            · have := ih h; omega
        · split at h
          · split at h
            · exact absurd h (by simp)
            · have := ih h; omega
          · split at h
            · injection h with h
              injection h with h1 h
              injection h with h2 h
              subst h
              omega
            · exact absurd h (by simp)

theorem nextBlock_length {s : Bool} {m no : Nat} {ls r : List (List Nat)} (h : nextBlock s m ls = .got no r) : r.length < ls.length := by
  induction ls with
  | nil => simp [nextBlock] at h
  | cons x ls ih =>
    rw [nextBlock] at h
    rw [List.length_cons]
    split at h
    · have := ih h; omega
    · split at h
      · exact absurd h (by simp)
      · split at h
        · exact absurd h (by simp)
        · split at h
          · exact absurd h (by simp)
          · split at h
            · split at h
              · exact absurd h (by simp)
              · split at h
                · exact absurd h (by simp)
                · injection h with h1 h
                  subst h
                  omega
            · split at h
              · injection h with h1 h
                subst h
                omega
              · exact absurd h (by simp)

variable {σ : Type} {f : TBlock → σ → Option σ} {ov : List Nat}

theorem blockStep_length {st st' : TState σ} {no : Nat} {ls r : List (List Nat)} (h : blockStep f st no ls = some (st', r)) :
    r.length < ls.length := by
  unfold blockStep at h
  split at h
  · exact absurd h (by simp)
  · split at h
    · exact absurd h (by simp)
    · rename_i cs l rest hc
      have hc' := contextsOf_length hc
      split at h
      · exact absurd h (by simp)
      · split at h
        · split at h
          · exact absurd h (by simp)
          · rename_i b rest' hb
            have := bodyOf_length hb
            rw [List.length_cons] at this
            split at h
            · exact absurd h (by simp)
            · injection h with h
              injection h with h1 h
              subst h
              omega
        · split at h
          · exact absurd h (by simp)
          · rename_i rest' hb
            have := findEnd_length hb
            injection h with h
            injection h with h1 h
            subst h
            omega

theorem settingsStep_length {st st' : TState σ} {ls r : List (List Nat)} (h : settingsStep ov st ls = some (st', r)) :
    r.length < ls.length := by
  unfold settingsStep at h
  split at h
  · exact absurd h (by simp)
  · rename_i c d rest hc
    have := settingsLoop_length hc
    split at h
    · exact absurd h (by simp)
    · split at h
      · exact absurd h (by simp)
      · split at h
        · split at h
          · exact absurd h (by simp)
          · injection h with h
            injection h with h1 h
            subst h
            omega
        · injection h with h
          injection h with h1 h
          subst h
          omega

/-- One turn of the loop. -/
def turn (f : TBlock → σ → Option σ) (ov : List Nat) (st : TState σ) (no : Nat) (rest : List (List Nat)) :
    Option (TState σ × List (List Nat)) :=
  if no = 1 then settingsStep ov { st with num := st.num + 1 } rest else blockStep f { st with num := st.num + 1 } no rest

theorem turn_length {st st' : TState σ} {no : Nat} {ls r : List (List Nat)} (h : turn f ov st no ls = some (st', r)) :
    r.length < ls.length := by
  unfold turn at h
  split at h
  · exact settingsStep_length h
  · exact blockStep_length h

theorem loop_succ (fuel : Nat) (st : TState σ) (ls : List (List Nat)) : loop f ov (fuel + 1) st ls =
    match nextBlock st.settings st.num ls with
    | .eof => (st, .done)
    | .bad => (st, .header)
    | .got no rest =>
      match turn f ov st no rest with
      | none => (st, .block)
      | some (st', rest') => loop f ov fuel st' rest' := rfl

/-- Fuel above the number of lines makes no difference. -/
theorem loop_fuel (n m : Nat) (st : TState σ) (ls : List (List Nat)) (hn : ls.length < n) (hm : ls.length < m) :
    loop f ov n st ls = loop f ov m st ls := by
  induction n generalizing m st ls with
  | zero => omega
  | succ n ih =>
    obtain ⟨m, rfl⟩ : ∃ k, m = k + 1 := ⟨m - 1, by omega⟩
    rw [loop_succ, loop_succ]
    cases hh : nextBlock st.settings st.num ls with
    | eof => rfl
    | bad => rfl
    | got no rest =>
      simp only
      have h1 := nextBlock_length hh
      cases ht : turn f ov st no rest with
      | none => rfl
      | some q =>
        obtain ⟨st', rest'⟩ := q
        have h2 := turn_length ht
        simp only
        exact ih m st' rest' (by omega) (by omega)

/-! ### Well-formed blocks -/

theorem lines_eq (s : Section) (ls : List (List Nat)) :
    s.lines ++ ls = s.start.before ++ s.start.line :: (text s.ctxs ++ (text s.body ++ (text [s.fin] ++ ls))) := by
  unfold Section.lines
  rw [text_append, text_append, text_cons]
  simp

/-- What a processor does with a well-formed block. -/
theorem blockStep_section {s : Section} (h : s.OK) (st : TState σ) (ls : List (List Nat)) (hp : s.no = 401 → st.last = some 201) :
    blockStep f st s.no (text s.ctxs ++ (text s.body ++ (text [s.fin] ++ ls))) =
      if s.For st.ctx then
        (match f s.block st.store with
          | none => none
          | some x => some ({ st with store := x, last := some s.no, log := st.log ++ [s.block] }, ls))
      else some ({ st with last := some s.no }, ls) := by
  obtain ⟨⟨_, _, _, hcn, hcl, hcs⟩, hbn, hb, hf⟩ := h
  unfold blockStep
  rw [if_neg (by rintro ⟨h1, h2⟩; exact h2 (hp h1)), contextsOf_run hcs (by simpa using hcl), List.nil_append]
  cases hbd : s.body with
  | nil => exact absurd hbd hbn
  | cons p ps =>
    rw [hbd] at hb
    have hp1 := hb p (by simp)
    rw [text_cons, List.append_assoc, List.cons_append, contextsOf_stop hp1.1 hp1.2.1 hp1.2.2.1]
    simp only
    rw [if_neg (by simpa using hcn)]
    by_cases hF : s.For st.ctx
    · rw [if_pos (active_iff.2 hF), if_pos hF]
      have : bodyOf (p.line :: (text ps ++ (text [s.fin] ++ ls))) [] = some (s.body.map fun p => trimR p.line, ls) := by
        rw [bodyOf_other hp1, bodyOf_run fun q hq => hb q (by simp [hq]), bodyOf_end hf, hbd]
        rfl
      rw [this]
      rfl
    · rw [if_neg (mt active_iff.1 hF), if_neg hF,
        findEnd_run (fun q hq => ⟨(hb q (by simp [hq])).1, (hb q (by simp [hq])).2.1, (hb q (by simp [hq])).2.2.2⟩), findEnd_end hf]

theorem turn_section {s : Section} (h : s.OK) (st : TState σ) (ls : List (List Nat)) (hp : s.no = 401 → st.last = some 201) :
    turn f ov st s.no (text s.ctxs ++ (text s.body ++ (text [s.fin] ++ ls))) =
      if s.For st.ctx then
        (match f s.block st.store with
          | none => none
          | some x => some ({ st with num := st.num + 1, store := x, last := some s.no, log := st.log ++ [s.block] }, ls))
      else some ({ st with num := st.num + 1, last := some s.no }, ls) := by
  unfold turn
  rw [if_neg h.1.2.2.1, blockStep_section h { st with num := st.num + 1 } ls hp]

/-- Where the loop stands after well-formed blocks have been read. -/
theorem loop_sections (l : List Section) (hl : ∀ s ∈ l, s.OK) (st : TState σ) (hs : st.settings = true)
    (hp : PestAfterList st.last l) (rest : List (List Nat)) (n : Nat) :
    (∀ x, ((l.filter (Section.For st.ctx)).map Section.block).foldlM (fun s b => f b s) st.store = some x →
      ∃ st', loop f ov (n + l.length) st (l.flatMap Section.lines ++ rest) = loop f ov n st' rest ∧ st'.ctx = st.ctx ∧
        st'.settings = true ∧ st'.date = st.date ∧ st'.store = x ∧
        st'.log = st.log ++ (l.filter (Section.For st.ctx)).map Section.block) ∧
    (((l.filter (Section.For st.ctx)).map Section.block).foldlM (fun s b => f b s) st.store = none →
      (loop f ov (n + l.length) st (l.flatMap Section.lines ++ rest)).2 = .block) := by
  induction l generalizing st with
  | nil =>
    constructor
    · intro x hx
      simp only [List.filter_nil, List.map_nil, List.foldlM_nil] at hx
      injection hx with hx
      exact ⟨st, rfl, rfl, hs, rfl, hx, by simp⟩
    · intro h
      simp at h
  | cons s l ih =>
    have hs1 := hl s (by simp)
    have hstep : loop f ov (n + (s :: l).length) st ((s :: l).flatMap Section.lines ++ rest) =
        match turn f ov st s.no (text s.ctxs ++ (text s.body ++ (text [s.fin] ++ (l.flatMap Section.lines ++ rest)))) with
        | none => (st, .block)
        | some (st', rest') => loop f ov (n + l.length) st' rest' := by
      rw [List.length_cons, ← Nat.add_assoc, List.flatMap_cons, List.append_assoc, lines_eq, loop_succ, hs, nextBlock_start hs1.1]
    rw [hstep, turn_section hs1 st _ hp.1]
    by_cases hF : s.For st.ctx
    · rw [if_pos hF, List.filter_cons_of_pos (by simpa using hF), List.map_cons, List.foldlM_cons]
      cases hf : f s.block st.store with
      | none => simp
      | some y =>
        simp only
        have := ih (fun q hq => hl q (by simp [hq])) { st with num := st.num + 1, store := y, last := some s.no, log := st.log ++ [s.block] } hs hp.2
        refine ⟨fun x hx => ?_, fun hx => this.2 hx⟩
        obtain ⟨st', h1, h2, h3, h4, h5, h6⟩ := this.1 x hx
        exact ⟨st', h1, h2, h3, h4, h5, by rw [h6]; simp⟩
    · rw [if_neg hF, List.filter_cons_of_neg (by simpa using hF)]
      exact ih (fun q hq => hl q (by simp [hq])) { st with num := st.num + 1, last := some s.no } hs hp.2

/-! ### SETTINGS -/

theorem settings_lines_eq (s : Settings) (ls : List (List Nat)) : s.lines ++ ls =
    s.start.before ++ s.start.line :: (text (if s.ctxFirst then [s.ctx, s.date] else [s.date, s.ctx]) ++ (text [s.fin] ++ ls)) := by
  unfold Settings.lines
  rw [text_append, text_cons]
  cases s.ctxFirst <;> simp [text]

theorem settingsLoop_ctx {p : Piece} (h : p.Is "CONTEXT") (hp : Plain p.value) {c : List Nat} {d : Option Nat} {ls : List (List Nat)}
    (hc : c = [] ∨ ov ≠ []) :
    settingsLoop ov (p.before ++ p.line :: ls) c d = settingsLoop ov ls ((p.value.map lower).take 25) d := by
  obtain ⟨_, hn, t, hsp, ht⟩ := entry_cut (is_entry h)
  rw [settingsLoop_skip h.1, settingsLoop, hn]
  simp only [Bool.false_eq_true, if_false, hsp]
  rw [if_pos (key_is h codes_len.1), if_neg (by rintro ⟨h1, h2⟩; rcases hc with h3 | h3 <;> contradiction),
    contextOf_plain (entry_word (is_entry h)).2 hp ht]

theorem settingsLoop_date {p : Piece} (h : p.Is "DATE_FORMAT") (hp : Plain p.value) {k : Nat} (hk : DateWord p.value k) {c : List Nat}
    {d : Option Nat} {ls : List (List Nat)} : settingsLoop ov (p.before ++ p.line :: ls) c d = settingsLoop ov ls c (some k) := by
  obtain ⟨_, hn, t, hsp, ht⟩ := entry_cut (is_entry h)
  have hd : dateSpec (p.value ++ t) = some k := by
    unfold dateSpec
    rw [getText_plain (entry_word (is_entry h)).2 hp ht]
    simp only
    rw [field_word (entry_word (is_entry h)).2, List.take_of_length_le hk.1]
    rcases hk.2 with ⟨rfl, h1, h2⟩ | ⟨rfl, h1, h2⟩
    · rw [if_pos ⟨h1, h2⟩]
    · rw [if_neg, if_pos ⟨h1, h2⟩]
      rintro ⟨h3, _⟩
      rw [h1] at h3
      exact absurd h3 (by decide)
  rw [settingsLoop_skip h.1, settingsLoop, hn]
  simp only [Bool.false_eq_true, if_false, hsp]
  rw [if_neg (by rw [key_is h codes_len.2.2.1]; exact codes_ne.2.1), if_pos (key_is h codes_len.2.2.1), hd]

theorem settingsLoop_end {p : Piece} (h : p.Is "END") {c : List Nat} {d : Option Nat} {ls : List (List Nat)} :
    settingsLoop ov (text [p] ++ ls) c d = some (c, d, ls) := by
  obtain ⟨_, hn, t, hsp, ht⟩ := entry_cut (is_entry h)
  rw [text_cons, List.append_assoc, settingsLoop_skip h.1, List.cons_append, settingsLoop, hn]
  simp only [Bool.false_eq_true, if_false, hsp]
  rw [if_neg (by rw [key_is h codes_len.2.1]; exact codes_ne.1.symm), if_neg (by rw [key_is h codes_len.2.1]; exact codes_ne.2.2),
    if_pos (key_is h codes_len.2.1)]
  simp [text]

theorem take25_ne {v : List Nat} (h : Word v) : v.take 25 ≠ [] := by
  have := h.1
  cases v with
  | nil => exact absurd rfl this
  | cons a b => simp

theorem arg_trim {arg : List Nat} (h : arg = [] ∨ Word arg) : trimR (arg.take 25) = arg.take 25 := by
  rcases h with rfl | h
  · rfl
  · exact trimR_word fun c hc => (h.2 c (List.mem_of_mem_take hc)).1

/-- The state after SETTINGS. -/
theorem loop_settings {S : Settings} (h : S.OK) {arg : List Nat} (ha : arg = [] ∨ Word arg) (x : σ) (ls : List (List Nat)) (n : Nat) :
    loop f (arg.take 25) (n + 1) ⟨[], false, 0, none, 0, x, []⟩ (S.lines ++ ls) =
      loop f (arg.take 25) n ⟨S.context arg, true, 1, some 1, S.spec, x, []⟩ ls := by
  obtain ⟨hs, ht, hc, hcp, hd, hdp, hdw, hf⟩ := h
  obtain ⟨_, hn, t, hsp, htl⟩ := entry_cut (is_entry hs)
  have hhead : nextBlock false 0 (S.lines ++ ls) = .got 1 (text (if S.ctxFirst then [S.ctx, S.date] else [S.date, S.ctx]) ++ (text [S.fin] ++ ls)) := by
    rw [settings_lines_eq, nextBlock_skip hs.1, nextBlock, hn]
    simp only [Bool.false_eq_true, if_false, hsp]
    rw [if_neg (by rw [key_is hs codes_len.2.2.2.1]; simp), tail_take (entry_word (is_entry hs)).2 htl,
      (key_iff codes_len.2.2.2.2).2 ht]
    have : titleNo (codes "SETTINGS") = some 1 := by decide +kernel
    rw [this]
    simp
  have hloop : settingsLoop (arg.take 25) (text (if S.ctxFirst then [S.ctx, S.date] else [S.date, S.ctx]) ++ (text [S.fin] ++ ls)) [] none =
      some ((S.ctx.value.map lower).take 25, some S.spec, ls) := by
    cases S.ctxFirst
    · simp only [Bool.false_eq_true, if_false]
      rw [text_cons, text_cons, List.append_assoc, List.cons_append, settingsLoop_date hd hdp hdw, List.append_assoc, List.cons_append,
        settingsLoop_ctx hc hcp (Or.inl rfl)]
      exact settingsLoop_end hf
    · simp only [if_true]
      rw [text_cons, text_cons, List.append_assoc, List.cons_append, settingsLoop_ctx hc hcp (Or.inl rfl), List.append_assoc,
        List.cons_append, settingsLoop_date hd hdp hdw]
      exact settingsLoop_end hf
  have hcne : (S.ctx.value.map lower).take 25 ≠ [] := by
    rw [← List.map_take]
    simpa using take25_ne (entry_word (is_entry hc)).2
  rw [loop_succ]
  simp only
  rw [hhead]
  simp only
  unfold turn settingsStep
  rw [if_pos rfl]
  simp only
  rw [hloop]
  simp only
  rw [if_neg (by rintro ⟨h1, _⟩; exact hcne h1)]
  unfold Settings.context
  rcases ha with rfl | ha
  · simp
  · rw [if_pos (take25_ne ha), if_neg (fun h => (ha.2 _ (List.mem_of_mem_take h)).1 rfl), if_neg ha.1]

theorem run_settings {S : Settings} (h : S.OK) {arg : List Nat} (ha : arg = [] ∨ Word arg) (x : σ) (ls : List (List Nat)) (m : Nat)
    (hm : ls.length < m) :
    runTsp f arg x (S.lines ++ ls) = loop f (arg.take 25) m ⟨S.context arg, true, 1, some 1, S.spec, x, []⟩ ls := by
  unfold runTsp
  rw [arg_trim ha, loop_settings h ha]
  apply loop_fuel _ _ _ _ _ hm
  have : 1 ≤ S.lines.length := by
    unfold Settings.lines text
    rw [List.flatMap_append, List.length_append, List.flatMap_cons, List.length_append, List.length_append, List.length_singleton]
    omega
  rw [List.length_append]
  omega

/-- A block right after SETTINGS that is for another context: `q` is its first line after the contexts. -/
theorem run_skip {S : Settings} (hS : S.OK) {arg : List Nat} (ha : arg = [] ∨ Word arg) {x : σ} {s : Section} (hh : s.Head)
    (hn : ¬ s.For (S.context arg)) {q : Piece} (hb : ∀ n ∈ q.before, Blank n) (he : Entry q.line q.key q.value)
    (hk : q.key.map upper ≠ codes "CONTEXT") {u rest : List (List Nat)} (hu : findEnd u = some rest) :
    runTsp f arg x (S.lines ++ (s.start.before ++ s.start.line :: (text s.ctxs ++ (q.before ++ q.line :: u)))) =
      if s.no = 401 then (⟨S.context arg, true, 1, some 1, S.spec, x, []⟩, .block) else
      loop f (arg.take 25) (rest.length + 1) ⟨S.context arg, true, 2, some s.no, S.spec, x, []⟩ rest := by
  have hul := findEnd_length hu
  rw [run_settings hS ha x _ ((s.start.before ++ s.start.line :: (text s.ctxs ++ (q.before ++ q.line :: u))).length + 1) (by omega), loop_succ]
  have hstep : turn f (arg.take 25) ⟨S.context arg, true, 1, some 1, S.spec, x, []⟩ s.no (text s.ctxs ++ (q.before ++ q.line :: u)) =
      if s.no = 401 then none else some (⟨S.context arg, true, 2, some s.no, S.spec, x, []⟩, rest) := by
    obtain ⟨_, _, hno, hcn, hcl, hcs⟩ := hh
    unfold turn blockStep
    rw [if_neg hno]
    by_cases h4 : s.no = 401
    · rw [if_pos ⟨h4, by simp⟩, if_pos h4]
    · rw [if_neg (by simp [h4]), if_neg h4, contextsOf_run hcs (by simpa using hcl), List.nil_append, contextsOf_stop hb he hk]
      simp only
      rw [if_neg (by simpa using hcn), if_neg (mt active_iff.1 hn), hu]
  simp only
  rw [nextBlock_start hh]
  simp only
  rw [hstep]
  by_cases h4 : s.no = 401
  · rw [if_pos h4, if_pos h4]
  · rw [if_neg h4, if_neg h4]
    simp only
    apply loop_fuel
    · simp only [List.length_append, List.length_cons]
      omega
    · omega

/-! ### Any file -/

theorem lower_not_upper (c : Nat) : ¬ (65 ≤ lower c ∧ lower c ≤ 90) := by
  unfold lower
  split <;> omega

theorem contextsOf_lower {ls acc cs : List (List Nat)} {l : List Nat} {r : List (List Nat)} (h : contextsOf ls acc = some (cs, l, r))
    (ha : ∀ c ∈ acc, ∀ x ∈ c, ¬ (65 ≤ x ∧ x ≤ 90)) : ∀ c ∈ cs, ∀ x ∈ c, ¬ (65 ≤ x ∧ x ≤ 90) := by
  induction ls generalizing acc with
  | nil => simp [contextsOf] at h
  | cons y ls ih =>
    rw [contextsOf] at h
    split at h
    · exact ih h ha
    · split at h
      · exact absurd h (by simp)
      · split at h
        · split at h
          · exact absurd h (by simp)
          · split at h
            · exact absurd h (by simp)
            · rename_i c hc
              refine ih h fun d hd x hx => ?_
              rcases List.mem_append.1 hd with hd | hd
              · exact ha d hd x hx
              · rw [List.mem_singleton] at hd
                subst hd
                unfold contextOf at hc
                split at hc
                · exact absurd hc (by simp)
                · split at hc
                  · exact absurd hc (by simp)
                  · injection hc with hc
                    subst hc
                    obtain ⟨z, _, rfl⟩ := List.mem_map.1 hx
                    exact lower_not_upper z
        · injection h with h
          injection h with h1 h
          subst h1
          exact ha

/-- What holds of every state of a run. -/
structure RunInv (f : TBlock → σ → Option σ) (ov : List Nat) (x : σ) (st : TState σ) : Prop where
  wanted : ∀ b ∈ st.log, st.ctx ∈ b.contexts ∨ codes "all" ∈ b.contexts
  store : st.log.foldlM (fun s b => f b s) x = some st.store
  settings : st.log ≠ [] → st.settings = true
  override : st.settings = true → ov ≠ [] → st.ctx = ov
  lower : ∀ b ∈ st.log, ∀ c ∈ b.contexts, ∀ y ∈ c, ¬ (65 ≤ y ∧ y ≤ 90)
  named : st.settings = true → st.ctx ≠ []

theorem inv_settings {x : σ} {st st' : TState σ} {ls r : List (List Nat)} (hi : RunInv f ov x st) (hn : st.settings = false)
    (h : settingsStep ov st ls = some (st', r)) : RunInv f ov x st' := by
  have hlog : st.log = [] := by
    by_contra h0
    rw [hi.settings h0] at hn
    exact absurd hn (by simp)
  have hst := hi.store
  unfold settingsStep at h
  split at h
  · exact absurd h (by simp)
  · split at h
    · exact absurd h (by simp)
    · rename_i hctx
      split at h
      · exact absurd h (by simp)
      · split at h
        · rename_i hov
          split at h
          · exact absurd h (by simp)
          · injection h with h
            injection h with h1 h
            subst h1
            exact ⟨by simp [hlog], hst, fun _ => rfl, fun _ _ => rfl, hi.lower, fun _ => hov⟩
        · rename_i hov
          injection h with h
          injection h with h1 h
          subst h1
          exact ⟨by simp [hlog], hst, fun _ => rfl, fun _ h0 => absurd h0 hov, hi.lower, fun _ h0 => hctx ⟨h0, not_not.1 hov⟩⟩

theorem inv_block {x : σ} {st st' : TState σ} {no : Nat} {ls r : List (List Nat)} (hi : RunInv f ov x st) (hs : st.settings = true)
    (h : blockStep f st no ls = some (st', r)) : RunInv f ov x st' := by
  unfold blockStep at h
  split at h
  · exact absurd h (by simp)
  · split at h
    · exact absurd h (by simp)
    · rename_i cs l rest hc
      have hlow := contextsOf_lower hc (by simp)
      split at h
      · exact absurd h (by simp)
      · split at h
        · rename_i hact
          split at h
          · exact absurd h (by simp)
          · rename_i b rest' hb
            split at h
            · exact absurd h (by simp)
            · rename_i y hy
              injection h with h
              injection h with h1 h
              subst h1
              have hw : st.ctx ∈ cs ∨ codes "all" ∈ cs := by
                unfold active at hact
                simpa using hact
              refine ⟨fun b' hb' => ?_, ?_, fun _ => hs, hi.override, fun b' hb' => ?_, hi.named⟩
              · rcases List.mem_append.1 hb' with h' | h'
                · exact hi.wanted b' h'
                · rw [List.mem_singleton] at h'
                  subst h'
                  exact hw
              · show (st.log ++ [_]).foldlM _ x = some y
                rw [List.foldlM_append, hi.store]
                simp [hy]
              · rcases List.mem_append.1 hb' with h' | h'
                · exact hi.lower b' h'
                · rw [List.mem_singleton] at h'
                  subst h'
                  exact hlow
        · split at h
          · exact absurd h (by simp)
          · injection h with h
            injection h with h1 h
            subst h1
            exact ⟨hi.wanted, hi.store, hi.settings, hi.override, hi.lower, hi.named⟩

theorem nextBlock_settings {s : Bool} {m no : Nat} {ls r : List (List Nat)} (h : nextBlock s m ls = .got no r) :
    (no = 1 → s = false) ∧ (no ≠ 1 → s = true) := by
  induction ls with
  | nil => simp [nextBlock] at h
  | cons x ls ih =>
    rw [nextBlock] at h
    split at h
    · exact ih h
    · split at h
      · exact absurd h (by simp)
      · split at h
        · exact absurd h (by simp)
        · split at h
          · exact absurd h (by simp)
          · split at h
            · rename_i h1
              split at h
              · exact absurd h (by simp)
              · rename_i hs
                split at h
                · exact absurd h (by simp)
                · injection h with h2 h
                  subst h2
                  exact ⟨fun _ => by simpa using hs, fun h0 => absurd h1 h0⟩
            · rename_i h1
              split at h
              · rename_i hs
                injection h with h2 h
                subst h2
                exact ⟨fun h0 => absurd h0 h1, fun _ => hs⟩
              · exact absurd h (by simp)

theorem inv_loop {x : σ} (n : Nat) (st : TState σ) (ls : List (List Nat)) (hi : RunInv f ov x st) : RunInv f ov x (loop f ov n st ls).1 := by
  induction n generalizing st ls with
  | zero => exact hi
  | succ n ih =>
    rw [loop_succ]
    cases hh : nextBlock st.settings st.num ls with
    | eof => exact hi
    | bad => exact hi
    | got no rest =>
      simp only
      cases ht : turn f ov st no rest with
      | none => exact hi
      | some q =>
        obtain ⟨st', rest'⟩ := q
        simp only
        apply ih
        have hi' : RunInv f ov x { st with num := st.num + 1 } := ⟨hi.wanted, hi.store, hi.settings, hi.override, hi.lower, hi.named⟩
        unfold turn at ht
        split at ht
        · rename_i h1
          exact inv_settings hi' ((nextBlock_settings hh).1 h1) ht
        · rename_i h1
          exact inv_block hi' ((nextBlock_settings hh).2 h1) ht

theorem inv_run (x : σ) (arg : List Nat) (ls : List (List Nat)) : RunInv f (trimR (arg.take 25)) x (runTsp f arg x ls).1 := by
  apply inv_loop
  exact ⟨by simp, rfl, by simp, by simp, by simp, by simp⟩

end Verif.TspCtl
