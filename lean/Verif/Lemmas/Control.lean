import Verif.Spec.Control
import Verif.Lemmas.CText
/- Helper lemmas for the control file properties. -/
namespace Verif.CFile

theorem fgetsTake_line {w : List Char} (hw : '\n' ∉ w) :
    ∀ {n : Nat}, w.length + 1 ≤ n → ∀ r, fgetsTake n (w ++ '\n' :: r) = (w ++ ['\n'], r) := by
  induction w with
  | nil =>
    intro n hn r
    cases n with
    | zero => simp at hn
    | succ n => simp [fgetsTake]
  | cons c w ih =>
    intro n hn r
    cases n with
    | zero => simp at hn
    | succ n =>
      have hc : c ≠ '\n' := fun e => hw (by simp [e])
      have hw' : '\n' ∉ w := fun e => hw (by simp [e])
      simp only [List.length_cons] at hn
      simp [fgetsTake, hc, ih hw' (show w.length + 1 ≤ n by omega) r]

theorem fgets_line {w : List Char} (hw : '\n' ∉ w) {num : Nat} (hn : w.length + 2 ≤ num)
    (r : List Char) (e : Bool) :
    fgets num ⟨w ++ '\n' :: r, e⟩ = some (w ++ ['\n'], ⟨r, e⟩) := by
  have h := fgetsTake_line hw (show w.length + 1 ≤ num - 1 by omega) r
  unfold fgets
  cases hx : w ++ '\n' :: r with
  | nil => simp at hx
  | cons a b =>
    simp only [hx] at h ⊢
    simp [h]

end Verif.CFile

namespace Verif.Control
open Verif.CText Verif.CFile

theorem beforeSlashes_none {s : List Char} (h : ¬ HasSlashes s) : beforeSlashes s = none := by
  induction s with
  | nil => simp [beforeSlashes]
  | cons c s ih =>
    have h' : ¬ HasSlashes s := fun ⟨a, b, e⟩ => h ⟨c :: a, b, by simp [← e]⟩
    unfold beforeSlashes
    split
    · rename_i heq; exact absurd ⟨[], _, heq.symm⟩ h
    · rfl
    · rename_i heq; cases heq; simp [ih h']

theorem beforeSlashes_blank {s : List Char} (h : ¬ HasSlashes s) (t : List Char) :
    beforeSlashes (s ++ ' ' :: '/' :: '/' :: t) = some (s ++ [' ']) := by
  induction s with
  | nil => simp [beforeSlashes]
  | cons c s ih =>
    have h' : ¬ HasSlashes s := fun ⟨a, b, e⟩ => h ⟨c :: a, b, by simp [← e]⟩
    have ih := ih h'
    rw [List.cons_append]
    unfold beforeSlashes
    split
    · rename_i heq
      cases s with
      | nil => simp at heq
      | cons d s =>
        simp only [List.cons_append, List.cons.injEq] at heq
        exact absurd ⟨[], s, by simp [heq.1, heq.2.1]⟩ h
    · rename_i heq; simp at heq
    · rename_i heq; cases heq; simp [ih]

theorem not_slashes_newline {s : List Char} (h : ¬ HasSlashes s) : ¬ HasSlashes (s ++ ['\n']) := by
  rintro ⟨a, b, e⟩
  apply h
  rcases List.eq_nil_or_concat b with hb | ⟨b', x, hb⟩
  · subst hb
    have := congrArg List.getLast? e
    simp at this
  · subst hb
    have := congrArg List.dropLast e
    simp only [List.concat_eq_append, ← List.append_assoc, List.dropLast_concat] at this
    exact ⟨a, b', by simpa using this⟩

/-- The last character of the line as the reader sees it. -/
def Datum.endc (d : Datum) : Char := match d.comment with | none => '\n' | some _ => ' '

theorem endc_space (d : Datum) : isSpace d.endc = true := by
  unfold Datum.endc; split <;> decide

theorem skip_render_length (s : Skip) : 1 ≤ s.render.length := by
  cases s <;> simp [Skip.render]

theorem fgetsRc_skip {s : Skip} {num : Nat} (hn : 2 ≤ num) (hs : s.Ok num) (fuel : Nat)
    (r : List Char) (e : Bool) :
    fgetsRc (fuel + 1) num ⟨s.render ++ r, e⟩ = fgetsRc fuel num ⟨r, e⟩ := by
  cases s with
  | blank =>
    have h := fgets_line (w := []) (by simp) (num := num) (by simpa using hn) r e
    simp only [List.nil_append] at h
    have h2 : Skip.blank.render ++ r = '\n' :: r := rfl
    rw [h2, fgetsRc, h]
    simp
  | comment c =>
    obtain ⟨h1, h2⟩ := hs
    have h := fgets_line (w := '/' :: '/' :: c) (by simp [h1]) (num := num)
      (by simp only [List.length_cons]; omega) r e
    have h3 : (Skip.comment c).render ++ r = ('/' :: '/' :: c) ++ '\n' :: r := by simp [Skip.render]
    rw [h3, fgetsRc, h]
    simp

theorem fgetsRc_skips {l : List Skip} {num : Nat} (hn : 2 ≤ num) (hs : ∀ s ∈ l, s.Ok num)
    (fuel : Nat) (r : List Char) (e : Bool) :
    fgetsRc (fuel + l.length) num ⟨l.flatMap Skip.render ++ r, e⟩ = fgetsRc fuel num ⟨r, e⟩ := by
  induction l with
  | nil => simp
  | cons s l ih =>
    rw [List.flatMap_cons, List.append_assoc, List.length_cons, ← Nat.add_assoc,
      fgetsRc_skip hn (hs s (by simp))]
    exact ih fun s h => hs s (by simp [h])

theorem take2_of_not {s : List Char} (h : ¬ HasSlashes s) {c : Char} (hc : c ≠ '/') (t : List Char)
    (h0 : s ≠ []) : (s ++ c :: t).take 2 ≠ ['/', '/'] := by
  match s with
  | [] => exact absurd rfl h0
  | [a] => simp [hc]
  | a :: b :: s =>
    intro e
    simp at e
    exact h ⟨[], s, by simp [e.1, e.2]⟩

theorem fgetsRc_datum {d : Datum} {num : Nat} (hd : d.Ok num) {fuel : Nat}
    (hf : d.render.length < fuel) (r : List Char) (e : Bool) :
    fgetsRc fuel num ⟨d.render ++ r, e⟩ = .ok (d.text ++ [d.endc]) ⟨r, e⟩ := by
  obtain ⟨h1, h2, h3, h4, h5, h6⟩ := hd
  have hlen : d.before.length ≤ (d.before.flatMap Skip.render).length := by
    generalize d.before = l
    induction l with
    | nil => simp
    | cons s l ih =>
      have := skip_render_length s
      simp only [List.length_cons, List.flatMap_cons, List.length_append]; omega
  have hpos : 1 ≤ d.text.length := by
    rcases Nat.eq_zero_or_pos d.text.length with h | h
    · exact absurd (List.length_eq_zero_iff.1 h) h2
    · exact h
  have htail : 1 ≤ d.tail.length := by unfold Datum.tail; split <;> simp
  have hn : 2 ≤ num := by simp only [List.length_append] at h6; omega
  unfold Datum.render at hf ⊢
  simp only [List.length_append] at hf
  obtain ⟨k, hk⟩ : ∃ k, fuel = (k + 1) + d.before.length := ⟨fuel - 1 - d.before.length, by omega⟩
  rw [hk, List.append_assoc, List.append_assoc, fgetsRc_skips hn h1]
  cases hc : d.comment with
  | none =>
    have ht : d.tail = ['\n'] := by simp [Datum.tail, hc]
    have he : d.endc = '\n' := by simp [Datum.endc, hc]
    rw [ht, he]
    rw [ht] at h6
    have hg := fgets_line h3 (num := num) (by simp only [List.length_append, List.length_cons, List.length_nil] at h6; omega) r e
    rw [List.cons_append, List.nil_append, fgetsRc, hg]
    have hb := beforeSlashes_none (not_slashes_newline h4)
    have ht2 := take2_of_not h4 (c := '\n') (by decide) [] h2
    simp only [ht2, if_false, List.length_append, List.length_cons, List.length_nil, hb]
    rw [if_neg (by omega)]
  | some c =>
    have ht : d.tail = ' ' :: '/' :: '/' :: c ++ ['\n'] := by simp [Datum.tail, hc]
    have he : d.endc = ' ' := by simp [Datum.endc, hc]
    rw [he]
    have hw : '\n' ∉ d.text ++ ' ' :: '/' :: '/' :: c := by simp [h3, h5 c hc]
    have hg := fgets_line hw (num := num) (by
      rw [ht] at h6
      simp only [List.length_append, List.length_cons, List.length_nil] at h6 ⊢; omega) r e
    have hx : d.text ++ (d.tail ++ r) = (d.text ++ ' ' :: '/' :: '/' :: c) ++ '\n' :: r := by
      simp [ht]
    rw [hx, fgetsRc, hg]
    have hy : d.text ++ ' ' :: '/' :: '/' :: c ++ ['\n'] = d.text ++ ' ' :: '/' :: '/' :: (c ++ ['\n']) := by
      simp
    have ht2 := take2_of_not h4 (c := ' ') (by decide) ('/' :: '/' :: (c ++ ['\n'])) h2
    simp only [hy, ht2, if_false, beforeSlashes_blank h4 (c ++ ['\n'])]
    rw [if_neg (by simp only [List.length_append, List.length_cons]; omega),
      splitLast_some d.text (by simp)]

theorem getLine_datum {F} {d : Datum} {num : Nat} (hd : d.Ok num) {fuel : Nat}
    (hf : d.render.length < fuel) (r : List Char) (m : Option Nat) (db : Db F) :
    getLine fuel num ⟨d.render ++ r, false⟩ m db = .ok (d.text ++ [d.endc], ⟨r, false⟩) := by
  simp [getLine, fgetsRc_datum hd hf r false]

theorem getLine_line {F} {d : Datum} (hd : d.Ok 256) {fuel : Nat}
    (hf : d.render.length < fuel) (r : List Char) (m : Option Nat) (db : Db F) :
    getLine fuel MAXLNLEN ⟨d.render ++ r, false⟩ m db = .ok (d.text ++ [d.endc], ⟨r, false⟩) :=
  getLine_datum hd hf r m db

theorem getLine_key {F} {d : Datum} (hd : d.Ok 50) {fuel : Nat}
    (hf : d.render.length < fuel) (r : List Char) (m : Option Nat) (db : Db F) :
    getLine fuel MAXKEYLEN ⟨d.render ++ r, false⟩ m db = .ok (d.text ++ [d.endc], ⟨r, false⟩) :=
  getLine_datum hd hf r m db

theorem header_take {s : List Char} (c : Char) (hc : c ≠ '#') :
    (s ++ [c]).take 4 = ['#', '#', '#', '#'] ↔ IsHeader s := by
  match s with
  | [] => simp [IsHeader]
  | [a] => simp [IsHeader, List.cons_prefix_cons]
  | [a, b] => simp [IsHeader, List.cons_prefix_cons]
  | [a, b, d] => simp [IsHeader, List.cons_prefix_cons, hc]
  | a :: b :: d :: f :: t =>
    simp only [List.cons_append, List.take_succ_cons, List.take_zero, IsHeader, List.cons_prefix_cons]
    simp only [List.cons.injEq]
    constructor
    · rintro ⟨rfl, rfl, rfl, rfl, _⟩; simp
    · rintro ⟨rfl, rfl, rfl, rfl, _⟩; simp

theorem header_take' {s : List Char} : s.take 4 = ['#', '#', '#', '#'] ↔ IsHeader s := by
  unfold IsHeader
  rw [List.prefix_iff_eq_take]
  constructor <;> intro h <;> simpa using h.symm

theorem endc_ne (d : Datum) : d.endc ≠ '#' := by unfold Datum.endc; split <;> decide

theorem datum_render_length {d : Datum} : 1 ≤ d.render.length := by
  unfold Datum.render Datum.tail
  split <;> simp only [List.length_append, List.length_cons, List.length_nil] <;> omega

theorem lines_length (l : List Datum) : l.length ≤ (l.flatMap Datum.render).length := by
  induction l with
  | nil => simp
  | cons d l ih =>
    have := datum_render_length (d := d)
    simp only [List.length_cons, List.flatMap_cons, List.length_append]; omega

theorem skipHeader_found {F} (db : Db F) {free : List Datum} {header : Datum} {fuel : Nat}
    (hfree : ∀ d ∈ free, d.Ok 256 ∧ ¬ IsHeader d.text) (hh : header.Ok 256)
    (hhh : IsHeader header.text) :
    ∀ {n : Nat} {line : List Char} (r : List Char), ¬ (line.take 4 = ['#', '#', '#', '#']) →
      (free.flatMap Datum.render ++ header.render).length < fuel → free.length + 2 ≤ n →
      skipHeader fuel db n line ⟨free.flatMap Datum.render ++ header.render ++ r, false⟩ =
        .ok ⟨r, false⟩ := by
  induction free with
  | nil =>
    intro n line r hl hf hn
    obtain ⟨k, rfl⟩ : ∃ k, n = k + 2 := ⟨n - 2, by simp at hn; omega⟩
    simp only [List.flatMap_nil, List.nil_append] at hf ⊢
    rw [skipHeader, if_neg hl, getLine_line hh hf]
    simp only [Out.bind]
    rw [skipHeader, if_pos ((header_take _ (endc_ne _)).2 hhh)]
  | cons d l ih =>
    intro n line r hl hf hn
    obtain ⟨k, rfl⟩ : ∃ k, n = k + 1 := ⟨n - 1, by simp at hn; omega⟩
    have hd := hfree d (by simp)
    simp only [List.flatMap_cons, List.append_assoc, List.length_append] at hf ⊢
    rw [skipHeader, if_neg hl, getLine_line hd.1 (fuel := fuel) (by omega)]
    simp only [Out.bind]
    have := ih (fun x hx => hfree x (by simp [hx])) (n := k) (line := d.text ++ [d.endc]) r
      (fun e => hd.2 ((header_take _ (endc_ne _)).1 e))
      (by simp only [List.length_append]; omega) (by simp at hn; omega)
    simpa using this

theorem skipHeader_end {F} (db : Db F) {free : List Datum} {fuel : Nat}
    (hfree : ∀ d ∈ free, d.Ok 256 ∧ ¬ IsHeader d.text) :
    ∀ {n : Nat} {line : List Char}, ¬ (line.take 4 = ['#', '#', '#', '#']) →
      (free.flatMap Datum.render).length < fuel → free.length + 1 ≤ n →
      skipHeader fuel db n line ⟨free.flatMap Datum.render, false⟩ = .ret none db := by
  induction free with
  | nil =>
    intro n line hl hf hn
    obtain ⟨k, rfl⟩ : ∃ k, n = k + 1 := ⟨n - 1, by simp at hn; omega⟩
    obtain ⟨m, rfl⟩ : ∃ m, fuel = m + 1 := ⟨fuel - 1, by simp at hf; omega⟩
    rw [skipHeader, if_neg hl]
    simp [getLine, fgetsRc, fgets, Out.bind]
  | cons d l ih =>
    intro n line hl hf hn
    obtain ⟨k, rfl⟩ : ∃ k, n = k + 1 := ⟨n - 1, by simp at hn; omega⟩
    have hd := hfree d (by simp)
    simp only [List.flatMap_cons, List.length_append] at hf ⊢
    rw [skipHeader, if_neg hl, getLine_line hd.1 (fuel := fuel) (by omega)]
    simp only [Out.bind]
    exact ih (fun x hx => hfree x (by simp [hx])) (fun e => hd.2 ((header_take _ (endc_ne _)).1 e))
      (by omega) (by simp at hn; omega)

theorem readDigits_trailing {c : Char} (hc : isDigit c = false) (s : List Char) (acc : Nat) :
    (readDigits acc (s ++ [c])).1 = (readDigits acc s).1 := by
  induction s generalizing acc with
  | nil => simp [readDigits, hc]
  | cons a s ih =>
    simp only [List.cons_append, readDigits]
    split
    · exact ih _
    · rfl

theorem dropWhile_append_space {c : Char} (hc : isSpace c = true) (s : List Char) :
    (s ++ [c]).dropWhile isSpace = s.dropWhile isSpace ++ [c] ∨
    (s.dropWhile isSpace = [] ∧ (s ++ [c]).dropWhile isSpace = []) := by
  induction s with
  | nil => right; simp [hc]
  | cons a s ih =>
    simp only [List.cons_append, List.dropWhile_cons]
    split
    · exact ih
    · left; simp

theorem readSign_append {c : Char} (hc : isSpace c = true) (u : List Char) :
    readSign (u ++ [c]) = ((readSign u).1, (readSign u).2 ++ [c]) := by
  cases u with
  | nil =>
    have : c ≠ '-' ∧ c ≠ '+' := by constructor <;> (rintro rfl; revert hc; decide)
    simp only [List.nil_append]
    unfold readSign
    split
    · rename_i h; simp at h; exact absurd h.1 this.1
    · rename_i h; simp at h; exact absurd h.1 this.2
    · simp
  | cons a u =>
    simp only [List.cons_append]
    unfold readSign
    split
    · rename_i h; simp only [List.cons.injEq] at h; obtain ⟨rfl, rfl⟩ := h; rfl
    · rename_i h; simp only [List.cons.injEq] at h; obtain ⟨rfl, rfl⟩ := h; rfl
    · rename_i h1 h2
      split
      · rename_i h; simp only [List.cons.injEq] at h; obtain ⟨rfl, rfl⟩ := h; exact absurd rfl (h1 _)
      · rename_i h; simp only [List.cons.injEq] at h; obtain ⟨rfl, rfl⟩ := h; exact absurd rfl (h2 _)
      · rfl

theorem space_not_digit {c : Char} (hc : isSpace c = true) : isDigit c = false := by
  cases h : isDigit c with
  | false => rfl
  | true => rw [digit_not_space h] at hc; exact absurd hc (by decide)

theorem atoi_trailing {c : Char} (hc : isSpace c = true) (s : List Char) :
    atoi (s ++ [c]) = atoi s := by
  unfold atoi strtol
  have hd := space_not_digit hc
  rcases dropWhile_append_space hc s with h | ⟨h1, h2⟩
  · rw [h, readSign_append hc]
    generalize readSign (s.dropWhile isSpace) = p
    obtain ⟨neg, u⟩ := p
    cases u with
    | nil => simp [strtolBody, hd]
    | cons a u =>
      simp only [List.cons_append, strtolBody]
      split
      · have := readDigits_trailing hd (a :: u) 0
        rw [List.cons_append] at this
        rw [this]
      · rfl
  · rw [h1, h2]
    simp [readSign, strtolBody]

theorem lineVal_denote {F} {ps : Parse F} (hp : TrailingSpace ps) {ty : Nat}
    (hk : ty = 1 ∨ ty = 2 ∨ ty = 3 ∨ ty = 4) (d : Datum) :
    lineVal ps ((ty : Nat) : Int) (d.text ++ [d.endc]) = denote ps ty d.text := by
  have hs := endc_space d
  obtain ⟨h1, h2⟩ := hp d.text d.endc hs
  rcases hk with rfl | rfl | rfl | rfl
  · simp [lineVal, denote, atoi_trailing hs]
  · simp [lineVal, denote, h2]
  · simp [lineVal, denote, h1]
  · simp [lineVal, denote]

theorem set_take_drop {α} (l : List α) (i : Nat) (x : α) (h : i < l.length) :
    l.set i x = l.take i ++ x :: l.drop (i + 1) := by
  rw [List.set_eq_take_append_cons_drop, if_pos h]

theorem storeLoop_ok {F} {ps : Parse F} (hp : TrailingSpace ps) {ty : Nat}
    (hk : ty = 1 ∨ ty = 2 ∨ ty = 3 ∨ ty = 4) {fuel : Nat} (db : Db F) {c : Ctl F}
    (hty : c.type = ty) {vals : List Datum} (hv : ∀ d ∈ vals, d.Ok 256 ∧ ¬ IsHeader d.text)
    (r : List Char) :
    ∀ (i : Nat) (mem : List (Option (Val F))) (line : List Char),
      ¬ (line.take 4 = ['#', '#', '#', '#']) → i + vals.length ≤ mem.length →
      (vals.flatMap Datum.render).length < fuel →
      ∃ line', ¬ (line'.take 4 = ['#', '#', '#', '#']) ∧
        storeLoop ps fuel db c ty vals.length i mem line ⟨vals.flatMap Datum.render ++ r, false⟩ =
          .ok (mem.take i ++ vals.map (fun d => some (denote ps ty d.text)) ++
            mem.drop (i + vals.length), line', ⟨r, false⟩) := by
  induction vals with
  | nil =>
    intro i mem line hl _ _
    exact ⟨line, hl, by simp [storeLoop]⟩
  | cons d l ih =>
    intro i mem line hl hle hf
    have hd := hv d (by simp)
    simp only [List.length_cons] at hle
    simp only [List.flatMap_cons, List.length_append] at hf
    have hl' : ¬ ((if ((ty : Nat) : Int) = 4 then (d.text ++ [d.endc]).dropLast else d.text ++ [d.endc]).take 4
        = ['#', '#', '#', '#']) := by
      split
      · rw [List.dropLast_concat, header_take']; exact hd.2
      · rw [header_take _ (endc_ne d)]; exact hd.2
    obtain ⟨line', h1, h2⟩ := ih (fun x hx => hv x (by simp [hx])) (i + 1)
      (mem.set i (some (denote ps ty d.text)))
      _ hl' (by simp; omega) (by omega)
    refine ⟨line', h1, ?_⟩
    rw [List.flatMap_cons, List.append_assoc, List.length_cons, storeLoop,
      getLine_line hd.1 (fuel := fuel) (by omega)]
    have hcell : storeCell c mem ((ty : Nat) : Int) i (denote ps ty d.text) =
        .ok (mem.set i (some (denote ps ty d.text))) := by
      have hle2 : (i + 1) * typeWidth ty ≤ mem.length * typeWidth ty :=
        Nat.mul_le_mul_right _ (by omega)
      simp only [storeCell, hty]
      rw [if_neg (by omega), if_neg (by simp)]
    simp only [Out.bind, lineVal_denote hp hk, hcell]
    rw [h2, set_take_drop _ _ _ (by omega)]
    have e1 : (mem.take i ++ some (denote ps ty d.text) :: mem.drop (i + 1)).take (i + 1) =
        mem.take i ++ [some (denote ps ty d.text)] := by
      rw [List.take_append]
      have : (mem.take i).length = i := by simp; omega
      rw [List.take_of_length_le (by omega), this]
      simp
    have e2 : (mem.take i ++ some (denote ps ty d.text) :: mem.drop (i + 1)).drop (i + 1 + l.length) =
        mem.drop (i + (l.length + 1)) := by
      rw [List.drop_append]
      have : (mem.take i).length = i := by simp; omega
      rw [List.drop_eq_nil_of_le (by omega), this, List.nil_append]
      rw [show i + 1 + l.length - i = l.length + 1 by omega, List.drop_succ_cons, List.drop_drop]
      congr 1; omega
    rw [e1, e2]
    simp

theorem storeLoop_overrun {F} {ps : Parse F} (hp : TrailingSpace ps) {ty : Nat}
    (hk : ty = 1 ∨ ty = 2 ∨ ty = 3 ∨ ty = 4) {fuel : Nat} (db : Db F) {c : Ctl F}
    (hty : c.type = ty) {vals : List Datum} (hv : ∀ d ∈ vals, d.Ok 256)
    (r : List Char) :
    ∀ (i : Nat) (mem : List (Option (Val F))) (line : List Char),
      i ≤ mem.length → mem.length < i + vals.length →
      (vals.flatMap Datum.render).length < fuel →
      storeLoop ps fuel db c ty vals.length i mem line ⟨vals.flatMap Datum.render ++ r, false⟩ =
        .overrun := by
  induction vals with
  | nil => intro i mem line h1 h2; simp at h2; omega
  | cons d l ih =>
    intro i mem line hi hle hf
    have hd := hv d (by simp)
    simp only [List.length_cons] at hle
    simp only [List.flatMap_cons, List.length_append] at hf
    rw [List.flatMap_cons, List.append_assoc, List.length_cons, storeLoop,
      getLine_line hd (fuel := fuel) (by omega)]
    simp only [Out.bind, lineVal_denote hp hk]
    by_cases hlt : i < mem.length
    · have hcell : storeCell c mem ((ty : Nat) : Int) i (denote ps ty d.text) =
          .ok (mem.set i (some (denote ps ty d.text))) := by
        have hle2 : (i + 1) * typeWidth ty ≤ mem.length * typeWidth ty :=
          Nat.mul_le_mul_right _ (by omega)
        simp only [storeCell, hty]
        rw [if_neg (by omega), if_neg (by simp)]
      simp only [hcell]
      exact ih (fun x hx => hv x (by simp [hx])) (i + 1) _ _ (by simp; omega) (by simp; omega) (by omega)
    · have hcell : storeCell c mem ((ty : Nat) : Int) i (denote ps ty d.text) = .overrun := by
        have hpos : 0 < typeWidth ty := by unfold typeWidth; split <;> omega
        have hle2 : mem.length * typeWidth ty < (i + 1) * typeWidth ty :=
          Nat.mul_lt_mul_of_pos_right (by omega) hpos
        simp only [storeCell, hty]
        rw [if_pos (by omega)]
      simp only [hcell]

theorem controlAddr_key {F} {db : Db F} {k : List Char} {c : Ctl F} (h : controlAddr db k = some c) :
    c.key = k := by
  have := List.find?_some h
  simpa using this

theorem controlAddr_mem {F} {db : Db F} {k : List Char} {c : Ctl F} (h : controlAddr db k = some c) :
    c ∈ db := List.mem_of_find?_eq_some h

theorem controlAddr_update {F} (db : Db F) (key : List Char) (mem) (k : List Char) :
    controlAddr (update db key mem) k =
      if k = key then (controlAddr db key).map (fun c => { c with mem := mem })
      else controlAddr db k := by
  induction db with
  | nil => simp [update, controlAddr]
  | cons c r ih =>
    unfold controlAddr at ih ⊢
    by_cases hc : c.key = key
    · simp only [update, hc, if_true, List.find?_cons]
      by_cases hk : k = key
      · subst hk; simp [hc]
      · simp [hk, Ne.symm hk]
    · simp only [update, hc, if_false, List.find?_cons]
      rw [ih]
      by_cases hk : k = key
      · subst hk; simp [hc]
      · simp [hk]

theorem typed_update {F} {db : Db F} (h : Typed db) (key : List Char) (mem) : Typed (update db key mem) := by
  induction db with
  | nil => simpa [update] using h
  | cons c r ih =>
    have hr : Typed r := fun x hx => h x (by simp [hx])
    have hc := h c (by simp)
    unfold update
    split
    · intro x hx
      simp only [List.mem_cons] at hx
      rcases hx with rfl | hx
      · exact hc
      · exact hr x hx
    · intro x hx
      simp only [List.mem_cons] at hx
      rcases hx with rfl | hx
      · exact hc
      · exact ih hr x hx

theorem controlAddr_append {F} (db : Db F) (c : Ctl F) (k : List Char)
    (h : controlAddr db c.key = none) :
    controlAddr (db ++ [c]) k = if k = c.key then some c else controlAddr db k := by
  unfold controlAddr at h ⊢
  rw [List.find?_append]
  by_cases hk : k = c.key
  · subst hk; simp [h]
  · simp [hk, Ne.symm hk]

theorem atoi_line (d : Datum) (n : Nat) (h : d.text = decimal n) : atoi (d.text ++ [d.endc]) = n := by
  rw [atoi_trailing (endc_space d), h, atoi_decimal]

/-- Total length of a record bounds every part. -/
theorem rec_render (r : Rec) : r.render = r.free.flatMap Datum.render ++ r.header.render ++
    (r.key.render ++ (r.size.render ++ (r.type.render ++ r.vals.flatMap Datum.render))) := by
  simp [Rec.render, Rec.lines]

theorem record_head {F} {ps : Parse F} {x : Rec} {ty : Nat} (hx : x.Ok ty)
    {fuel : Nat} (hf : x.render.length < fuel) (db : Db F) (r : List Char) :
    readRecord ps fuel db ⟨x.key.render ++ (x.size.render ++ (x.type.render ++
        (x.vals.flatMap Datum.render ++ r))), false⟩ =
    (entryFor db x.key.text ty x.vals.length).bind fun e =>
      (storeLoop ps fuel e.1 e.2 ty x.vals.length 0 e.2.mem (x.type.text ++ [x.type.endc])
        ⟨x.vals.flatMap Datum.render ++ r, false⟩).bind fun q =>
      .ok (q.2.1, q.2.2, update e.1 e.2.key q.1) := by
  rw [rec_render] at hf
  simp only [List.length_append] at hf
  unfold readRecord
  rw [getLine_key hx.keyFits (by omega)]
  simp only [Out.bind]
  rw [getLine_line (hx.lines _ (by simp [Rec.lines])) (by omega)]
  simp only [Out.bind]
  rw [getLine_line (hx.lines _ (by simp [Rec.lines])) (by omega)]
  simp only [Out.bind]
  rw [atoi_line _ _ hx.size, atoi_line _ _ hx.type]
  have hk := hx.known
  rw [if_neg (by omega), if_neg (by omega)]
  have : ((ty : Nat) : Int) = 1 ∨ ((ty : Nat) : Int) = 2 ∨ ((ty : Nat) : Int) = 3 ∨ ((ty : Nat) : Int) = 4 := by
    omega
  rw [List.dropLast_concat, Int.toNat_natCast]
  cases entryFor db x.key.text (ty : Int) x.vals.length <;> simp only
  rw [if_pos this]

theorem entryFor_some {F} {db : Db F} {key : List Char} {c : Ctl F} (h : controlAddr db key = some c)
    (type : Int) (size : Nat) : entryFor db key type size = .ok (db, c) := by
  simp [entryFor, h]

theorem entryFor_none {F} {db : Db F} {key : List Char} (h : controlAddr db key = none)
    {type : Int} (ht : type = 1 ∨ type = 2 ∨ type = 3 ∨ type = 4) (size : Nat) :
    entryFor db key type size = .ok (db ++ [⟨key, type, size, List.replicate size none⟩],
      ⟨key, type, size, List.replicate size none⟩) := by
  simp [entryFor, h, addControl, ht]

theorem type_not_header {x : Rec} {ty : Nat} (hx : x.Ok ty) :
    ¬ ((x.type.text ++ [x.type.endc]).take 4 = ['#', '#', '#', '#']) := by
  rw [header_take _ (endc_ne _), hx.type]
  rintro ⟨t, ht⟩
  have := decimal_digits ty '#' (by rw [← ht]; simp)
  exact absurd this (by decide)

theorem record_ok {F} {ps : Parse F} (hp : TrailingSpace ps) {x : Rec} {ty : Nat} (hx : x.Ok ty)
    {fuel : Nat} (hf : x.render.length < fuel) {db : Db F} (htd : Typed db)
    (hfit : Fits (storeOf db) (x, ty)) (r : List Char) :
    ∃ line' db', ¬ (line'.take 4 = ['#', '#', '#', '#']) ∧ Typed db' ∧
      storeOf db' = assign ps (storeOf db) (x, ty) ∧
      readRecord ps fuel db ⟨x.key.render ++ (x.size.render ++ (x.type.render ++
        (x.vals.flatMap Datum.render ++ r))), false⟩ = .ok (line', ⟨r, false⟩, db') := by
  rw [record_head hx hf]
  have hv : ∀ d ∈ x.vals, d.Ok 256 ∧ ¬ IsHeader d.text := fun d hd =>
    ⟨hx.lines d (by simp [Rec.lines, hd]), hx.vals d hd⟩
  have hflen : (x.vals.flatMap Datum.render).length < fuel := by
    rw [rec_render] at hf; simp only [List.length_append] at hf; omega
  cases hc : controlAddr db x.key.text with
  | some c =>
    have hkey := controlAddr_key hc
    have hfit' := hfit ⟨c.type.toNat, c.size, c.mem⟩ (by simp [storeOf, hc])
    have hty : c.type = ty := by
      have := htd c (controlAddr_mem hc)
      have := hfit'.1
      simp only at this
      omega
    obtain ⟨line', h1, h2⟩ := storeLoop_ok (fuel := fuel) hp hx.known db hty hv r 0 c.mem
      _ (type_not_header hx) (by simpa using hfit'.2) hflen
    refine ⟨line', update db c.key (c.mem.take 0 ++ x.vals.map (fun d => some (denote ps ty d.text)) ++
      c.mem.drop (0 + x.vals.length)), h1, typed_update htd _ _, ?_, ?_⟩
    rotate_left
    · rw [entryFor_some hc]
      simp only [Out.bind, h2]
    · funext k
      unfold storeOf assign
      rw [controlAddr_update, hkey]
      by_cases hk : k = x.key.text
      · simp [hk, hc]
      · simp [hk]
  | none =>
    have hti : ((ty : Nat) : Int) = 1 ∨ ((ty : Nat) : Int) = 2 ∨ ((ty : Nat) : Int) = 3 ∨ ((ty : Nat) : Int) = 4 := by
      have := hx.known; omega
    rw [entryFor_none hc hti]
    simp only [Out.bind]
    obtain ⟨line', h1, h2⟩ := storeLoop_ok (fuel := fuel) hp hx.known
      (db ++ [⟨x.key.text, ty, x.vals.length, List.replicate x.vals.length none⟩])
      (c := ⟨x.key.text, ty, x.vals.length, List.replicate x.vals.length none⟩) rfl hv r 0
      (List.replicate x.vals.length none) _ (type_not_header hx) (by simp) hflen
    refine ⟨line', update (db ++ [⟨x.key.text, ty, x.vals.length, List.replicate x.vals.length none⟩])
      x.key.text ((List.replicate x.vals.length none).take 0 ++
      x.vals.map (fun d => some (denote ps ty d.text)) ++
      (List.replicate x.vals.length none).drop (0 + x.vals.length)), h1, ?_, ?_, ?_⟩
    rotate_left 2
    · simp only [h2]
    · apply typed_update
      intro c hm
      simp only [List.mem_append, List.mem_singleton] at hm
      rcases hm with hm | rfl
      · exact htd c hm
      · exact hti
    · funext k
      unfold storeOf assign
      rw [controlAddr_update, controlAddr_append _ _ _ hc, controlAddr_append _ _ _ hc]
      by_cases hk : k = x.key.text
      · simp [hk, hc]
      · simp [hk]

theorem readLoop_recs {F} {ps : Parse F} (hp : TrailingSpace ps) {fuel : Nat} :
    ∀ (recs : List (Rec × Nat)), (∀ x ∈ recs, x.1.Ok x.2) →
    ∀ (n : Nat) (db : Db F) (line : List Char) (r : List Char), Typed db →
      FitsAll ps (storeOf db) recs → ¬ (line.take 4 = ['#', '#', '#', '#']) →
      (recs.flatMap (fun x => x.1.render)).length < fuel →
      ∃ db' line', Typed db' ∧ storeOf db' = recs.foldl (assign ps) (storeOf db) ∧
        ¬ (line'.take 4 = ['#', '#', '#', '#']) ∧
        readLoop ps fuel (n + recs.length) db line ⟨recs.flatMap (fun x => x.1.render) ++ r, false⟩ =
        readLoop ps fuel n db' line' ⟨r, false⟩
  | [], _, n, db, line, r, ht, _, hl, _ => ⟨db, line, ht, rfl, hl, by simp⟩
  | x :: xs, hok, n, db, line, r, ht, hfit, hl, hf => by
    have hx := hok x (by simp)
    simp only [List.flatMap_cons, List.length_append] at hf
    have hren := rec_render x.1
    have hlen : x.1.render.length < fuel := by omega
    obtain ⟨line1, db1, a1, a2, a3, a4⟩ := record_ok hp hx hlen ht hfit.1
      (xs.flatMap (fun x => x.1.render) ++ r)
    have hfit2 : FitsAll ps (storeOf db1) xs := by rw [a3]; exact hfit.2
    obtain ⟨db2, line2, b1, b2, b3, b4⟩ := readLoop_recs hp (fuel := fuel) xs (fun y hy => hok y (by simp [hy])) n db1
      line1 r a2 hfit2 a1 (by omega)
    refine ⟨db2, line2, b1, ?_, b3, ?_⟩
    · rw [b2, a3]; rfl
    · rw [List.length_cons, ← Nat.add_assoc, readLoop]
      simp only [Bool.false_eq_true, if_false]
      have hl1 : (x.1.free.flatMap Datum.render ++ x.1.header.render).length < fuel := by
        rw [hren] at hlen; simp only [List.length_append] at hlen ⊢; omega
      have hl2 : x.1.free.length + 2 ≤ fuel := by
        have q1 := lines_length x.1.free
        have q2 := datum_render_length (d := x.1.header)
        have q3 := datum_render_length (d := x.1.key)
        rw [hren] at hlen; simp only [List.length_append] at hlen; omega
      have hskip := skipHeader_found db (free := x.1.free) (header := x.1.header) (fuel := fuel)
        (fun d hd => ⟨hx.lines d (by simp [Rec.lines, hd]), hx.free d hd⟩)
        (hx.lines _ (by simp [Rec.lines])) hx.header (n := fuel) (line := line)
        (x.1.key.render ++ (x.1.size.render ++ (x.1.type.render ++ (x.1.vals.flatMap Datum.render ++
          (xs.flatMap (fun x => x.1.render) ++ r))))) hl hl1 hl2
      have hrw : (x :: xs).flatMap (fun x => x.1.render) ++ r =
          x.1.free.flatMap Datum.render ++ x.1.header.render ++
          (x.1.key.render ++ (x.1.size.render ++ (x.1.type.render ++ (x.1.vals.flatMap Datum.render ++
          (xs.flatMap (fun x => x.1.render) ++ r))))) := by
        rw [List.flatMap_cons, hren]; simp
      rw [hrw, hskip]
      simp only [Out.bind]
      rw [a4]
      exact b4

theorem recs_length (recs : List (Rec × Nat)) :
    recs.length ≤ (recs.flatMap (fun x => x.1.render)).length := by
  induction recs with
  | nil => simp
  | cons x xs ih =>
    have q2 := datum_render_length (d := x.1.header)
    have : 1 ≤ x.1.render.length := by rw [rec_render]; simp only [List.length_append]; omega
    simp only [List.length_cons, List.flatMap_cons, List.length_append]; omega

/-! Every loop of the reader consumes text, so the recursion bounds are never reached. -/

theorem fgetsTake_length : ∀ (n : Nat) (s : List Char),
    (fgetsTake n s).2.length ≤ s.length ∧ (0 < n → s ≠ [] → (fgetsTake n s).2.length < s.length)
  | 0, s => by simp [fgetsTake]
  | n + 1, [] => by simp [fgetsTake]
  | n + 1, c :: s => by
    have := (fgetsTake_length n s).1
    unfold fgetsTake
    split <;> simp <;> omega

theorem fgets_length {num : Nat} (hn : 2 ≤ num) {st st' : Stream} {l : List Char}
    (h : fgets num st = some (l, st')) : st'.rest.length < st.rest.length := by
  unfold fgets at h
  split at h
  · simp at h
  · rename_i hne
    simp only [Option.some.injEq, Prod.mk.injEq] at h
    rw [← h.2]
    exact (fgetsTake_length _ _).2 (by omega) (fun e => hne e)

theorem fgetsRc_fuel {num : Nat} (hn : 2 ≤ num) : ∀ (fuel : Nat) (st : Stream),
    st.rest.length < fuel → fgetsRc fuel num st ≠ .fuel ∧
      ∀ l st', fgetsRc fuel num st = .ok l st' → st'.rest.length < st.rest.length
  | 0, st, h => by omega
  | fuel + 1, st, h => by
    rw [fgetsRc]
    cases hg : fgets num st with
    | none => simp
    | some p =>
      obtain ⟨l, st1⟩ := p
      have hl := fgets_length hn hg
      have ih := fgetsRc_fuel hn fuel st1 (by omega)
      simp only
      split
      · exact ⟨ih.1, fun l' st' e => by have := ih.2 l' st' e; omega⟩
      · split
        · exact ⟨ih.1, fun l' st' e => by have := ih.2 l' st' e; omega⟩
        · cases beforeSlashes l with
          | none =>
            refine ⟨by simp, ?_⟩
            intro l' st' e
            simp only [Line.ok.injEq] at e
            rw [← e.2]; exact hl
          | some pre =>
            simp only
            cases splitLast ' ' pre with
            | none => simp
            | some q =>
              refine ⟨by simp, ?_⟩
              intro l' st' e
              simp only [Line.ok.injEq] at e
              rw [← e.2]; exact hl

theorem getLine_consumes {F} {num : Nat} (hn : 2 ≤ num) {fuel : Nat} {st : Stream}
    (h : st.rest.length < fuel) (o : Option Nat) (db : Db F) :
    getLine fuel num st o db ≠ .fuel ∧ ∀ l st', getLine fuel num st o db = .ok (l, st') →
      st'.rest.length < st.rest.length := by
  have := fgetsRc_fuel hn fuel st h
  unfold getLine
  cases hg : fgetsRc fuel num st with
  | eof => simp
  | ub => simp
  | fuel => exact absurd hg this.1
  | ok l st1 =>
    refine ⟨by simp, ?_⟩
    intro l' st' e
    simp only [Out.ok.injEq, Prod.mk.injEq] at e
    rw [← e.2]; exact this.2 _ _ hg

theorem storeLoop_consumes {F} (ps : Parse F) {fuel : Nat} (db : Db F) (c : Ctl F) (type : Int) :
    ∀ (n i : Nat) (mem) (line : List Char) (st : Stream), st.rest.length < fuel →
      storeLoop ps fuel db c type n i mem line st ≠ .fuel ∧
      ∀ m l st', storeLoop ps fuel db c type n i mem line st = .ok (m, l, st') →
        st'.rest.length ≤ st.rest.length
  | 0, i, mem, line, st, _ => by
    refine ⟨by simp [storeLoop], ?_⟩
    intro m l st' e
    simp only [storeLoop, Out.ok.injEq, Prod.mk.injEq] at e
    rw [e.2.2]
  | n + 1, i, mem, line, st, h => by
    rw [storeLoop]
    have hg := getLine_consumes (F := F) (num := MAXLNLEN) (by decide) h (some 6) (update db c.key mem)
    cases hx : getLine fuel MAXLNLEN st (some 6) (update db c.key mem) with
    | ok p =>
      obtain ⟨l, st1⟩ := p
      have hlt := hg.2 l st1 hx
      simp only [Out.bind]
      cases hs : storeCell c mem type i (lineVal ps type l) with
      | ok mem' =>
        have ih := storeLoop_consumes ps db c type n (i + 1) mem' (if type = 4 then l.dropLast else l) st1
          (fuel := fuel) (by omega)
        simp only
        exact ⟨ih.1, fun m l' st' e => by have := ih.2 m l' st' e; omega⟩
      | fuel =>
        unfold storeCell at hs
        split at hs
        · simp at hs
        · split at hs <;> simp at hs
      | _ => simp
    | fuel => exact absurd hx hg.1
    | _ => simp [Out.bind]

theorem entryFor_fuel {F} (db : Db F) (key : List Char) (type : Int) (size : Nat) :
    entryFor db key type size ≠ .fuel := by
  unfold entryFor
  split
  · simp
  · split <;> simp

theorem readRecord_consumes {F} (ps : Parse F) {fuel : Nat} (db : Db F) (st : Stream)
    (h : st.rest.length < fuel) :
    readRecord ps fuel db st ≠ .fuel ∧
      ∀ l st' db', readRecord ps fuel db st = .ok (l, st', db') → st'.rest.length < st.rest.length := by
  unfold readRecord
  have h1 := getLine_consumes (F := F) (num := MAXKEYLEN) (by decide) h (some 1) db
  cases g1 : getLine fuel MAXKEYLEN st (some 1) db with
  | fuel => exact absurd g1 h1.1
  | ok p =>
    obtain ⟨l1, st1⟩ := p
    have k1 := h1.2 _ _ g1
    simp only [Out.bind]
    have h2 := getLine_consumes (F := F) (num := MAXLNLEN) (st := st1) (fuel := fuel) (by decide) (by omega) (some 2) db
    cases g2 : getLine fuel MAXLNLEN st1 (some 2) db with
    | fuel => exact absurd g2 h2.1
    | ok p =>
      obtain ⟨l2, st2⟩ := p
      have k2 := h2.2 _ _ g2
      simp only
      split
      · simp
      · have h3 := getLine_consumes (F := F) (num := MAXLNLEN) (st := st2) (fuel := fuel) (by decide) (by omega) (some 4) db
        cases g3 : getLine fuel MAXLNLEN st2 (some 4) db with
        | fuel => exact absurd g3 h3.1
        | ok p =>
          obtain ⟨l3, st3⟩ := p
          have k3 := h3.2 _ _ g3
          simp only
          split
          · simp
          · have h4 := entryFor_fuel db l1.dropLast (atoi l3) (atoi l2).toNat
            cases g4 : entryFor db l1.dropLast (atoi l3) (atoi l2).toNat with
            | fuel => exact absurd g4 h4
            | ok e =>
              simp only
              split
              · have h5 := storeLoop_consumes ps (fuel := fuel) e.1 e.2 (atoi l3) (atoi l2).toNat 0 e.2.mem l3 st3 (by omega)
                cases g5 : storeLoop ps fuel e.1 e.2 (atoi l3) (atoi l2).toNat 0 e.2.mem l3 st3 with
                | fuel => exact absurd g5 h5.1
                | ok q =>
                  obtain ⟨m, l5, st5⟩ := q
                  have k5 := h5.2 _ _ _ g5
                  refine ⟨by simp, ?_⟩
                  intro l st' db' e
                  simp only [Out.ok.injEq, Prod.mk.injEq] at e
                  rw [← e.2.1]; omega
                | _ => simp
              · refine ⟨by simp, ?_⟩
                intro l st' db' e
                simp only [Out.ok.injEq, Prod.mk.injEq] at e
                rw [← e.2.1]; omega
            | _ => simp
        | _ => simp
    | _ => simp
  | _ => simp [Out.bind]

theorem skipHeader_consumes {F} {fuel : Nat} (db : Db F) : ∀ (n : Nat) (line : List Char) (st : Stream),
    st.rest.length < n → st.rest.length < fuel →
      skipHeader fuel db n line st ≠ .fuel ∧
      ∀ st', skipHeader fuel db n line st = .ok st' → st'.rest.length ≤ st.rest.length
  | 0, _, st, h, _ => by omega
  | n + 1, line, st, h, hf => by
    rw [skipHeader]
    split
    · refine ⟨by simp, ?_⟩
      intro st' e
      simp only [Out.ok.injEq] at e
      rw [e]
    · have h1 := getLine_consumes (F := F) (num := MAXLNLEN) (by decide) hf none db
      cases g1 : getLine fuel MAXLNLEN st none db with
      | fuel => exact absurd g1 h1.1
      | ok p =>
        obtain ⟨l1, st1⟩ := p
        have k1 := h1.2 _ _ g1
        have ih := skipHeader_consumes (fuel := fuel) db n l1 st1 (by omega) (by omega)
        simp only [Out.bind]
        exact ⟨ih.1, fun st' e => by have := ih.2 st' e; omega⟩
      | _ => simp [Out.bind]

theorem readLoop_fuel {F} (ps : Parse F) {fuel : Nat} : ∀ (n : Nat) (db : Db F) (line : List Char) (st : Stream),
    st.rest.length < n → st.rest.length < fuel → readLoop ps fuel n db line st ≠ .fuel ∧
      readLoop ps fuel n db line st ≠ .ok ()
  | 0, _, _, st, h, _ => by omega
  | n + 1, db, line, st, h, hf => by
    rw [readLoop]
    split
    · simp
    · have h1 := skipHeader_consumes (fuel := fuel) db fuel line st hf hf
      cases g1 : skipHeader fuel db fuel line st with
      | fuel => exact absurd g1 h1.1
      | ok st1 =>
        have k1 := h1.2 _ g1
        have h2 := readRecord_consumes ps (fuel := fuel) db st1 (by omega)
        simp only [Out.bind]
        cases g2 : readRecord ps fuel db st1 with
        | fuel => exact absurd g2 h2.1
        | ok p =>
          obtain ⟨l, st2, db2⟩ := p
          have k2 := h2.2 _ _ _ g2
          exact readLoop_fuel ps n db2 l st2 (by omega) (by omega)
        | _ => simp
      | _ => simp [Out.bind]

end Verif.Control
