import Verif.Spec.ParFile
import Verif.Lemmas.CText
import Verif.Lemmas.Control
import Mathlib.Tactic.SplitIfs
/- Helper lemmas for the parameter file properties. -/
namespace Verif.ParFile
open Verif.CText Verif.CFile

theorem unlines_cons (l : List Char) (ls) : unlines (l :: ls) = l ++ '\n' :: unlines ls := by
  simp [unlines]

theorem unlines_append (a b : List (List Char)) : unlines (a ++ b) = unlines a ++ unlines b := by
  simp [unlines]

theorem unlines_nil : unlines [] = [] := rfl

theorem fgets_fits {l : List Char} (h : Fits l) (r : List (List Char)) (e : Bool) :
    fgets MAXLNLEN ⟨unlines (l :: r), e⟩ = some (l ++ ['\n'], ⟨unlines r, e⟩) := by
  rw [unlines_cons]
  exact fgets_line h.1 (by have := h.2; show l.length + 2 ≤ 256; omega) _ _

theorem fgets_nil (num : Nat) (e : Bool) : fgets num ⟨[], e⟩ = none := rfl

theorem must_fits {V} {l : List Char} (h : Fits l) (x : Err) (db : Db V) (r : List (List Char)) (e : Bool) :
    must MAXLNLEN x db ⟨unlines (l :: r), e⟩ = .ok (l ++ ['\n'], ⟨unlines r, e⟩) := by
  simp [must, fgets_fits h]

theorem take4_newline (l : List Char) : isHead (l ++ ['\n']) = true ↔ IsHeader l := by
  simp only [isHead, IsHeader, decide_eq_true_eq]
  constructor
  · intro h
    by_cases hl : 4 ≤ l.length
    · rw [List.take_append_of_le_length hl] at h
      rw [← h]; exact List.take_prefix _ _
    · have : '\n' ∈ ['#', '#', '#', '#'] := by
        rw [← h, List.take_of_length_le (by simp; omega)]; simp
      simp at this
  · rintro ⟨t, rfl⟩; simp

theorem isHead_iff (l : List Char) : isHead l = true ↔ IsHeader l := by
  simp only [isHead, IsHeader, decide_eq_true_eq]
  constructor
  · intro h; rw [← h]; exact List.take_prefix _ _
  · rintro ⟨t, rfl⟩; simp

theorem isHead_hd (h : List Char) : isHead ("####".toList ++ h ++ ['\n']) = true := by
  rw [take4_newline]; exact ⟨h, rfl⟩

/-! ### The table -/

theorem find_update {V} (key : List Char) (f : Par V → Par V) (hf : ∀ p, (f p).name = p.name) (db : Db V)
    (n : List Char) : find (update key f db) n = if n = key then (find db n).map f else find db n := by
  induction db with
  | nil => simp [update, find]
  | cons p r ih =>
    simp only [find] at ih ⊢
    simp only [update]
    by_cases hp : p.name = key
    · simp only [hp, if_true, List.find?_cons, hf]
      by_cases hn : n = key
      · subst hn; simp
      · simp [hn, Ne.symm hn]
    · simp only [hp, if_false, List.find?_cons]
      by_cases hn : p.name = n
      · have : n ≠ key := fun e => hp (hn.trans e)
        simp [hn, this]
      · simp only [hn, decide_false]; exact ih

theorem decls_update {V} (key : List Char) (f : Par V → Par V)
    (hf : ∀ p, (f p).name = p.name ∧ (f p).dims = p.dims ∧ (f p).size = p.size ∧ (f p).type = p.type) (db : Db V) :
    decls (update key f db) = decls db := by
  induction db with
  | nil => rfl
  | cons p r ih =>
    simp only [update]
    split
    · simp [decls, hf]
    · simp only [decls, List.map_cons] at ih ⊢; rw [ih]

theorem mem_update {V} {key : List Char} {f : Par V → Par V} {db : Db V} {q : Par V} (h : q ∈ update key f db) :
    q ∈ db ∨ ∃ p, find db key = some p ∧ q = f p := by
  induction db with
  | nil => simp [update] at h
  | cons p r ih =>
    simp only [update] at h
    by_cases hp : p.name = key
    · simp only [hp, if_true, List.mem_cons] at h
      rcases h with rfl | h
      · exact Or.inr ⟨p, by simp [find, hp], rfl⟩
      · exact Or.inl (by simp [h])
    · simp only [hp, if_false, List.mem_cons] at h
      rcases h with rfl | h
      · exact Or.inl (by simp)
      · rcases ih h with h | ⟨p', h1, h2⟩
        · exact Or.inl (by simp [h])
        · refine Or.inr ⟨p', ?_, h2⟩
          simp only [find, List.find?_cons, hp, decide_false]; exact h1

theorem find_mem {V} {db : Db V} {n : List Char} {p : Par V} (h : find db n = some p) : p ∈ db ∧ p.name = n :=
  ⟨List.mem_of_find?_eq_some h, by have := List.find?_some h; simpa using this⟩

theorem find_decl {V} {db : Db V} : ∀ {db' : Db V}, decls db' = decls db → ∀ n,
    (find db' n).map (fun p => (p.name, p.dims, p.size, p.type)) =
    (find db n).map (fun p => (p.name, p.dims, p.size, p.type)) := by
  induction db with
  | nil => intro db' h n; cases db' with
    | nil => rfl
    | cons a b => simp [decls] at h
  | cons p r ih =>
    intro db' h n
    cases db' with
    | nil => simp [decls] at h
    | cons a b =>
      simp only [decls, List.map_cons, List.cons.injEq, Prod.mk.injEq] at h
      have := ih (db' := b) h.2 n
      simp only [find, List.find?_cons] at this ⊢
      by_cases hn : a.name = n
      · simp [hn, ← h.1.1, h.1.2.1, h.1.2.2.1, h.1.2.2.2]
      · have hp : p.name ≠ n := by rw [← h.1.1]; exact hn
        simp only [hn, hp, decide_false]; exact this

theorem Entry.Good.mono {V} {db db' : Db V} (h : decls db' = decls db) {e : Entry} (he : e.Good db) : e.Good db' := by
  cases e with
  | listed b =>
    obtain ⟨h1, ⟨p, h2, h3⟩, h4⟩ := he
    refine ⟨h1, ?_, h4⟩
    have := find_decl h b.name
    rw [h2] at this
    cases hq : find db' b.name with
    | none => simp [hq] at this
    | some q =>
      simp only [hq, Option.map_some, Option.some.injEq, Prod.mk.injEq] at this
      refine ⟨q, rfl, ?_⟩
      obtain ⟨a, b', c⟩ := h3
      exact ⟨this.2.1.trans a, this.2.2.1.trans b', this.2.2.2.trans c⟩
  | unknown hd name rest body =>
    obtain ⟨a, b, c, d, e, f, g⟩ := he
    refine ⟨a, b, c, d, e, f, ?_⟩
    have := find_decl h name
    rw [g] at this
    cases hq : find db' name with
    | none => rfl
    | some q => simp [hq] at this

/-! ### Words and repeats -/

theorem repText_item {x : Item} (h : x.Ok) (e : List Char) (he : '*' ∉ e) :
    repText (x.render ++ e) = ((x.count : Int), x.text ++ e) := by
  obtain ⟨rep, text⟩ := x
  obtain ⟨h1, h2, h3, h4⟩ := h
  cases rep with
  | none =>
    have h4 := h4 rfl
    simp only [Item.render, repText, Item.count, Option.getD_none]
    have : '*' ∉ text ++ e := by simp only [List.mem_append, not_or]; exact ⟨h4, he⟩
    simp [this]
  | some n =>
    rw [show Item.render ⟨some n, text⟩ = decimal n ++ '*' :: text from rfl]
    simp only [Item.count, Option.getD_some, repText]
    have hd : ∀ c ∈ decimal n, (decide (c ≠ '*')) = true := by
      intro c hc
      have := decimal_digits n c hc
      simp only [ne_eq, decide_not, Bool.not_eq_eq_eq_not, Bool.not_true, decide_eq_false_iff_not]
      rintro rfl
      simp [isDigit] at this
    have hm : '*' ∈ decimal n ++ '*' :: text ++ e := by simp
    rw [if_pos hm]
    rw [List.append_assoc, List.cons_append, List.takeWhile_append_of_pos hd, List.dropWhile_append_of_pos hd]
    simp only [ne_eq, not_true_eq_false, decide_false, List.takeWhile_cons, List.dropWhile_cons,
      Bool.false_eq_true, if_false, List.append_nil, List.tail_cons]
    rw [atoi_decimal]

/-- The words of a line of values: the last one has the newline. -/
def toks : Item → List (Nat × Item) → List (List Char)
  | x, [] => [x.render ++ ['\n']]
  | x, (_, y) :: m => x.render :: toks y m

theorem item_render_ne {x : Item} (h : x.Ok) : x.render ≠ [] := by
  obtain ⟨rep, text⟩ := x
  cases rep with
  | none => exact h.1
  | some n => simp [Item.render]

theorem item_render_blank {x : Item} (h : x.Ok) : ∀ c ∈ x.render, (decide (c = ' ')) = false := by
  obtain ⟨rep, text⟩ := x
  obtain ⟨h1, h2, h3, h4⟩ := h
  intro c hc
  simp only [decide_eq_false_iff_not]
  rintro rfl
  cases rep with
  | none => exact h2 hc
  | some n =>
    simp only [Item.render, List.mem_append, List.mem_cons] at hc
    rcases hc with hc | hc | hc
    · have := decimal_digits n _ hc; simp [isDigit] at this
    · simp at hc
    · exact h2 hc

theorem strtok_line : ∀ (x : Item) (m : List (Nat × Item)), (∀ i ∈ x :: m.map (·.2), i.Ok) →
    strtok (fun c => decide (c = ' '))
      (x.render ++ (m.flatMap fun y => List.replicate (y.1 + 1) ' ' ++ y.2.render) ++ ['\n']) = toks x m
  | x, [], h => by
    have hx := h x (by simp)
    have h1 := item_render_blank hx
    have : ∀ c ∈ x.render ++ ['\n'], (decide (c = ' ')) = false := by
      intro c hc
      rcases List.mem_append.1 hc with hc | hc
      · exact h1 c hc
      · simp only [List.mem_singleton] at hc; subst hc; decide
    simp only [List.flatMap_nil, List.append_nil, toks]
    have hl := strtok_layout (p := fun c => decide (c = ' ')) [(x.render ++ ['\n'], [])]
      ⟨by simp, this, by simp, by simp, trivial⟩
    simpa [layout] using hl
  | x, (n, y) :: m, h => by
    have hx := h x (by simp)
    have h1 := item_render_blank hx
    have ih := strtok_line y m (fun i hi => h i (by simp at hi ⊢; exact Or.inr hi))
    simp only [List.flatMap_cons, toks]
    rw [← ih]
    have e : x.render ++ (List.replicate (n + 1) ' ' ++ y.render ++ m.flatMap fun y => List.replicate (y.1 + 1) ' ' ++ y.2.render) ++ ['\n']
      = x.render ++ ' ' :: (List.replicate n ' ' ++ (y.render ++ (m.flatMap fun y => List.replicate (y.1 + 1) ' ' ++ y.2.render) ++ ['\n'])) := by
      simp [List.replicate_succ]
    rw [e]
    have hs : ∀ c ∈ List.replicate n ' ', (decide (c = ' ')) = true := by
      intro c hc; simp [List.eq_of_mem_replicate hc]
    generalize y.render ++ (m.flatMap fun y => List.replicate (y.1 + 1) ' ' ++ y.2.render) ++ ['\n'] = z at *
    have : strtok (fun c => decide (c = ' ')) (x.render ++ ' ' :: (List.replicate n ' ' ++ z)) =
        x.render :: strtok (fun c => decide (c = ' ')) (List.replicate n ' ' ++ z) := by
      unfold strtok
      rw [splitBy_word_sep h1 (by decide), List.filter_cons]
      simp [item_render_ne hx]
    rw [this, strtok_seps hs]

theorem strtok_vline {l : VLine} (h : ∀ i ∈ l.items, i.Ok) :
    strtok (fun c => decide (c = ' ')) (l.render ++ ['\n']) = toks l.first l.more := by
  have hs : ∀ c ∈ List.replicate l.lead ' ', (decide (c = ' ')) = true := by
    intro c hc; simp [List.eq_of_mem_replicate hc]
  rw [VLine.render, List.append_assoc, strtok_seps hs]
  exact strtok_line _ _ h

/-- Repeats and values of words. -/
theorem toks_reps {V} {conv : Ty → List Char → V} (hc : NewlineOk conv) (ty : Ty) : ∀ (x : Item) (m : List (Nat × Item)),
    (∀ i ∈ x :: m.map (·.2), i.Ok) →
    (toks x m).map (fun t => ((repText t).1, conv ty (repText t).2)) =
      (x :: m.map (·.2)).map fun i => ((i.count : Int), conv ty i.text)
  | x, [], h => by
    simp [toks, repText_item (h x (by simp)) ['\n'] (by simp), hc ty]
  | x, (n, y) :: m, h => by
    have ih := toks_reps hc ty y m (fun i hi => h i (by simp at hi ⊢; exact Or.inr hi))
    have := repText_item (h x (by simp)) [] (by simp)
    simp only [List.append_nil] at this
    simp only [toks, List.map_cons, this]
    rw [ih]; rfl

/-- The effect of words with the repeats and values `ps`. -/
def run {V} (size : Nat) : List (Int × V) → Cur V → Option (Bool × Cur V)
  | [], c => some (false, c)
  | p :: ps, c =>
    match storeRep size p.1 p.2 c with
    | none => none
    | some (true, c') => some (true, c')
    | some (false, c') => run size ps c'

theorem words_eq_run {V} (conv : Ty → List Char → V) (ty : Ty) (size : Nat) : ∀ (ts : List (List Char)) (c : Cur V),
    words conv ty size ts c = run size (ts.map fun t => ((repText t).1, conv ty (repText t).2)) c
  | [], c => rfl
  | t :: ts, c => by
    simp only [words, List.map_cons, run]
    cases h : storeRep size (repText t).1 (conv ty (repText t).2) c with
    | none => rfl
    | some r =>
      obtain ⟨b, c'⟩ := r
      cases b
      · exact words_eq_run conv ty size ts c'
      · rfl

/-- The values of pairs. -/
def ex {V} (ps : List (Nat × V)) : List V := ps.flatMap fun p => List.replicate p.1 p.2

/-- The position after values that fit. -/
def after {V} (c : Cur V) (e : List V) : Cur V :=
  ⟨c.i + e.length, c.vals.take c.i ++ e ++ c.vals.drop (c.i + e.length), c.desc⟩

theorem fill_eq {V} {c : Cur V} {m : Nat} {v : V} (h : c.i + m ≤ c.vals.length) :
    fill c m v = some (c.vals.take c.i ++ List.replicate m v ++ c.vals.drop (c.i + m)) := by
  unfold fill
  by_cases hm : m = 0
  · subst hm; simp
  · simp [hm, h]

theorem run_fit {V} {size : Nat} : ∀ (ps : List (Nat × V)) (c : Cur V), c.vals.length = size → c.i + (ex ps).length ≤ size →
    run size (ps.map fun p => ((p.1 : Int), p.2)) c = some (false, after c (ex ps))
  | [], c, h1, h2 => by simp [run, after, ex]
  | (n, v) :: ps, c, h1, h2 => by
    simp only [ex, List.flatMap_cons, List.length_append, List.length_replicate] at h2
    have hf : c.i + n ≤ size := by omega
    simp only [List.map_cons, run, storeRep, Int.toNat_natCast]
    rw [if_pos (by omega), fill_eq (by omega)]
    simp only [Option.map_some]
    have hl : (c.vals.take c.i ++ List.replicate n v ++ c.vals.drop (c.i + n)).length = size := by
      simp; omega
    rw [run_fit ps _ (by simpa using hl) (by simp only [ex]; omega)]
    simp only [after, ex, List.flatMap_cons, List.length_append, List.length_replicate]
    congr 3
    · omega
    · have h3 : (c.vals.take c.i ++ List.replicate n v).length = c.i + n := by simp; omega
      rw [List.take_append_of_le_length (by omega), List.take_of_length_le (by omega)]
      rw [List.drop_append, h3]
      rw [List.drop_of_length_le (by omega), List.drop_drop]
      simp only [List.nil_append, List.append_assoc]
      congr 4
      omega

theorem run_over {V} {size : Nat} : ∀ (ps : List (Nat × V)) (c : Cur V), c.vals.length = size → c.i ≤ size →
    size < c.i + (ex ps).length →
    run size (ps.map fun p => ((p.1 : Int), p.2)) c =
      some (true, ⟨size + 1, c.vals.take c.i ++ (ex ps).take (size - c.i), c.desc⟩)
  | [], c, h1, h2, h3 => by simp [ex] at h3; omega
  | (n, v) :: ps, c, h1, h2, h3 => by
    simp only [List.map_cons, run, storeRep, Int.toNat_natCast]
    by_cases hn : n ≤ size - c.i
    · rw [if_pos hn, fill_eq (by omega)]
      simp only [Option.map_some]
      have hl : (c.vals.take c.i ++ List.replicate n v ++ c.vals.drop (c.i + n)).length = size := by
        simp; omega
      simp only [ex, List.flatMap_cons, List.length_append, List.length_replicate] at h3
      rw [run_over ps _ (by simpa using hl) (by simp only; omega) (by simp only [ex]; omega)]
      simp only [ex, List.flatMap_cons]
      congr 3
      have h4 : (c.vals.take c.i ++ List.replicate n v).length = c.i + n := by simp; omega
      rw [List.take_append_of_le_length (by omega), List.take_of_length_le (by omega)]
      rw [List.append_assoc, List.take_append, List.length_replicate,
        List.take_of_length_le (l := List.replicate n v) (by simp; omega)]
      congr 3
      omega
    · rw [if_neg hn, fill_eq (by omega)]
      simp only [Option.map_some]
      congr 3
      · omega
      · rw [show c.i + (size - c.i) = size by omega, List.drop_of_length_le (by omega)]
        simp only [ex, List.flatMap_cons, List.append_nil]
        rw [List.take_append_of_le_length (by simp; omega)]
        simp only [List.take_replicate]
        congr 2
        omega

theorem ex_map {V} (conv : List Char → V) (is : List Item) :
    ex (is.map fun i => (i.count, conv i.text)) = is.flatMap fun i => List.replicate i.count (conv i.text) := by
  simp [ex, List.flatMap_map]

/-- The values of one line. -/
theorem words_vline {V} {conv : Ty → List Char → V} (hc : NewlineOk conv) (ty : Ty) (size : Nat) {l : VLine}
    (h : ∀ i ∈ l.items, i.Ok) (c : Cur V) :
    words conv ty size (strtok (fun ch => decide (ch = ' ')) (l.render ++ ['\n'])) c =
      run size ((l.items.map fun i => (i.count, conv ty i.text)).map fun p => ((p.1 : Int), p.2)) c := by
  rw [words_eq_run, strtok_vline h, toks_reps hc ty _ _ h]
  congr 1
  simp [VLine.items, Function.comp_def]

theorem length_expand {V} (conv : List Char → V) (ls : List SecLine) : (expand conv ls).length = total ls := by
  simp [expand, total, List.length_flatMap]

theorem expand_append {V} (conv : List Char → V) (a b : List SecLine) :
    expand conv (a ++ b) = expand conv a ++ expand conv b := by
  simp [expand]

theorem total_append (a b : List SecLine) : total (a ++ b) = total a + total b := by
  simp [total]

/-- What follows the values: the end of the file or a header line. -/
inductive Next (r : List (List Char)) : List Char → Stream → Prop
  | stop : r = [] → Next r [] ⟨[], true⟩
  | head (l : List Char) (r' : List (List Char)) : r = l :: r' → IsHeader l → Fits l →
      Next r (l ++ ['\n']) ⟨unlines r', false⟩

def Follows (r : List (List Char)) : Prop := r = [] ∨ ∃ l r', r = l :: r' ∧ IsHeader l ∧ Fits l

theorem Follows.next {r} (h : Follows r) : ∃ line st, Next r line st := by
  rcases h with h | ⟨l, r', h1, h2, h3⟩
  · exact ⟨_, _, .stop h⟩
  · exact ⟨_, _, .head l r' h1 h2 h3⟩

theorem valLines_end {V} {conv : Ty → List Char → V} {ty : Ty} {size n : Nat} {r : List (List Char)} {line st}
    (h : Next r line st) (c : Cur V) :
    valLines conv ty size (n + 1) ⟨unlines r, false⟩ c = .ok (line, st, c) := by
  cases h with
  | stop h => subst h; simp [valLines, unlines, fgets_nil]
  | head l r' h1 h2 h3 =>
    subst h1
    rw [valLines, fgets_fits h3]
    simp only [(take4_newline l).2 h2, if_true]

theorem headD_append {a b : List Char} (h : a ≠ []) (d : Char) : (a ++ b).headD d = a.headD d := by
  cases a with
  | nil => exact absurd rfl h
  | cons x y => rfl

theorem vline_head {l : VLine} (h : ∀ i ∈ l.items, i.Ok) (h2 : ¬ ['@'] <+: l.render) :
    ¬ (l.render ++ ['\n']).headD ' ' = '@' := by
  have hne : l.render ≠ [] := by
    have := item_render_ne (h l.first (by simp [VLine.items]))
    simp [VLine.render, this]
  rw [headD_append hne]
  intro hx
  apply h2
  cases hr : l.render with
  | nil => exact absurd hr hne
  | cons a b =>
    rw [hr] at hx
    simp only [List.headD_cons] at hx
    subst hx
    exact ⟨b, rfl⟩

/-- Position and values while a section is read: `e` are the values so far. -/
structure At {V} (size : Nat) (old e : List V) (c : Cur V) : Prop where
  i : c.i = e.length
  vals : c.vals = e ++ old.drop e.length
  desc : c.desc.length = size

theorem notes_tail {x : SecLine} {ls : List SecLine} {k : Nat}
    (h : ∀ a s b, x :: ls = a ++ SecLine.note s :: b → 0 < k + total a) :
    ∀ a s b, ls = a ++ SecLine.note s :: b → 0 < k + total [x] + total a := by
  intro a s b hab
  have := h (x :: a) s b (by rw [hab]; rfl)
  rw [show x :: a = [x] ++ a from rfl, total_append] at this
  omega

theorem valLines_step {V} {conv : Ty → List Char → V} (hc : NewlineOk conv) (ty : Ty) {size : Nat} {old : List V}
    (ho : old.length = size) {x : SecLine} (hx : x.Ok) {e : List V} {c : Cur V} (hat : At size old e c)
    (hn : ∀ s, x = .note s → 0 < e.length) (hfit : e.length + total [x] ≤ size) (n : Nat) (r : List (List Char)) :
    ∃ c1, At size old (e ++ expand (conv ty) [x]) c1 ∧
      valLines conv ty size (n + 1) ⟨unlines (x.render :: r), false⟩ c = valLines conv ty size n ⟨unlines r, false⟩ c1 := by
  rw [valLines, fgets_fits hx.1]
  cases x with
  | vals l =>
    obtain ⟨_, h1, h2, h3⟩ := hx
    have e1 : isHead (SecLine.render (.vals l) ++ ['\n']) = false := by
      cases hh : isHead (SecLine.render (.vals l) ++ ['\n']) with
      | false => rfl
      | true => exact absurd ((take4_newline _).1 hh) h2
    have e2 := vline_head h1 h3
    dsimp only
    rw [e1]
    rw [show SecLine.render (.vals l) = l.render from rfl]
    simp only [Bool.false_eq_true, if_false]
    rw [if_neg e2, words_vline hc ty size h1 c]
    have hexp : ex (l.items.map fun i => (i.count, conv ty i.text)) = expand (conv ty) [SecLine.vals l] := by
      rw [ex_map]; simp [expand, SecLine.items]
    have hlen := length_expand (conv ty) [SecLine.vals l]
    rw [run_fit _ c (by rw [hat.vals]; simp; omega) (by rw [hexp, hlen, hat.i]; omega), hexp]
    refine ⟨after c (expand (conv ty) [SecLine.vals l]), ⟨?_, ?_, hat.desc⟩, rfl⟩
    · simp [after, hat.i]
    · simp only [after, hat.i, hat.vals]
      rw [List.take_append_of_le_length (by simp), List.take_of_length_le (by simp)]
      rw [List.drop_append, List.drop_of_length_le (by omega), List.drop_drop]
      simp only [List.nil_append, List.append_assoc, List.length_append]
      congr 3
      omega
  | note s =>
    have e1 : isHead (SecLine.render (.note s) ++ ['\n']) = false := by
      cases hh : isHead (SecLine.render (.note s) ++ ['\n']) with
      | false => rfl
      | true =>
        have := (take4_newline _).1 hh
        obtain ⟨t, ht⟩ := this
        simp [SecLine.render] at ht
    dsimp only
    rw [e1]
    have h0 := hn s rfl
    have hle : e.length ≤ size := by omega
    simp only [Bool.false_eq_true, if_false, SecLine.render, List.cons_append, List.headD_cons, if_true]
    rw [if_pos (by rw [hat.i, hat.desc]; omega)]
    refine ⟨_, ⟨?_, ?_, ?_⟩, rfl⟩
    · simpa [expand, SecLine.items] using hat.i
    · simpa [expand, SecLine.items] using hat.vals
    · simpa using hat.desc

theorem note_first {x : SecLine} {ls : List SecLine} {k : Nat}
    (h : ∀ a s b, x :: ls = a ++ SecLine.note s :: b → 0 < k + total a) : ∀ s, x = .note s → 0 < k := by
  rintro s rfl
  simpa [total] using h [] s ls rfl

theorem valLines_sec {V} {conv : Ty → List Char → V} (hc : NewlineOk conv) (ty : Ty) {size : Nat} {old : List V}
    (ho : old.length = size) : ∀ (ls : List SecLine), (∀ l ∈ ls, l.Ok) → ∀ (e : List V) (c : Cur V), At size old e c →
    (∀ a s b, ls = a ++ SecLine.note s :: b → 0 < e.length + total a) → e.length + total ls ≤ size →
    ∀ (n : Nat) (r : List (List Char)),
    ∃ c', At size old (e ++ expand (conv ty) ls) c' ∧
      valLines conv ty size (n + ls.length) ⟨unlines (ls.map SecLine.render ++ r), false⟩ c =
      valLines conv ty size n ⟨unlines r, false⟩ c'
  | [], _, e, c, hat, _, _, n, r => ⟨c, by simpa [expand] using hat, by simp⟩
  | x :: ls, hok, e, c, hat, hn, hfit, n, r => by
    rw [show x :: ls = [x] ++ ls from rfl, total_append] at hfit
    have hn2 := notes_tail hn
    obtain ⟨c1, h1, h2⟩ := valLines_step hc ty ho (hok x (by simp)) hat (note_first hn) (by omega) (n + ls.length)
      (ls.map SecLine.render ++ r)
    have hlen := length_expand (conv ty) [x]
    obtain ⟨c', h3, h4⟩ := valLines_sec hc ty ho ls (fun l hl => hok l (by simp [hl])) _ c1 h1
      (by intro a s b hab; have := hn2 a s b hab; rw [List.length_append, hlen]; omega)
      (by rw [List.length_append, hlen]; omega) n r
    refine ⟨c', ?_, ?_⟩
    · rw [show x :: ls = [x] ++ ls from rfl, expand_append, ← List.append_assoc]; exact h3
    · rw [List.length_cons, ← Nat.add_assoc, List.map_cons, List.cons_append, h2, h4]

/-- Too many values: reading stops inside the section. -/
theorem valLines_over {V} {conv : Ty → List Char → V} (hc : NewlineOk conv) (ty : Ty) {size : Nat} {old : List V}
    (ho : old.length = size) : ∀ (ls : List SecLine), (∀ l ∈ ls, l.Ok) → ∀ (e : List V) (c : Cur V), At size old e c →
    (∀ a s b, ls = a ++ SecLine.note s :: b → 0 < e.length + total a) → e.length ≤ size → size < e.length + total ls →
    ∀ (n : Nat) (r : List (List Char)),
    ∃ line st c', c'.i = size + 1 ∧ c'.vals = (e ++ expand (conv ty) ls).take size ∧ c'.desc.length = size ∧
      valLines conv ty size (n + ls.length) ⟨unlines (ls.map SecLine.render ++ r), false⟩ c = .ok (line, st, c')
  | [], _, e, c, hat, _, h1, h2, n, r => by simp [total] at h2; omega
  | x :: ls, hok, e, c, hat, hn, h1, h2, n, r => by
    rw [show x :: ls = [x] ++ ls from rfl, total_append] at h2
    have hlen := length_expand (conv ty) [x]
    by_cases hx : e.length + total [x] ≤ size
    · have hn2 := notes_tail hn
      obtain ⟨c1, h3, h4⟩ := valLines_step hc ty ho (hok x (by simp)) hat (note_first hn) hx (n + ls.length)
        (ls.map SecLine.render ++ r)
      obtain ⟨line, st, c', h5, h6, h7, h8⟩ := valLines_over hc ty ho ls (fun l hl => hok l (by simp [hl])) _ c1 h3
        (by intro a s b hab; have := hn2 a s b hab; rw [List.length_append, hlen]; omega)
        (by rw [List.length_append, hlen]; omega) (by rw [List.length_append, hlen]; omega) n r
      refine ⟨line, st, c', h5, ?_, h7, ?_⟩
      · rw [show x :: ls = [x] ++ ls from rfl, expand_append, ← List.append_assoc]; exact h6
      · rw [List.length_cons, ← Nat.add_assoc, List.map_cons, List.cons_append, h4, h8]
    · cases x with
      | note s => exfalso; apply hx; simp [total, SecLine.items]; exact h1
      | vals l =>
        obtain ⟨hf, g1, g2, g3⟩ := hok (.vals l) (by simp)
        have e1 : isHead (SecLine.render (.vals l) ++ ['\n']) = false := by
          cases hh : isHead (SecLine.render (.vals l) ++ ['\n']) with
          | false => rfl
          | true => exact absurd ((take4_newline _).1 hh) g2
        have e2 := vline_head g1 g3
        rw [List.length_cons, ← Nat.add_assoc, List.map_cons, List.cons_append, valLines, fgets_fits hf]
        dsimp only
        rw [e1]
        rw [show SecLine.render (.vals l) = l.render from rfl]
        simp only [Bool.false_eq_true, if_false]
        rw [if_neg e2, words_vline hc ty size g1 c]
        have hexp : ex (l.items.map fun i => (i.count, conv ty i.text)) = expand (conv ty) [SecLine.vals l] := by
          rw [ex_map]; simp [expand, SecLine.items]
        rw [run_over _ c (by rw [hat.vals]; simp; omega) (by rw [hat.i]; omega) (by rw [hexp, hlen, hat.i]; omega), hexp]
        refine ⟨_, _, ⟨size + 1, _, c.desc⟩, rfl, ?_, hat.desc, rfl⟩
        simp only [hat.i, hat.vals]
        rw [List.take_append_of_le_length (by simp), List.take_of_length_le (by simp)]
        rw [show SecLine.vals l :: ls = [SecLine.vals l] ++ ls from rfl, expand_append, List.take_append,
          List.take_of_length_le h1, List.take_append_of_le_length (by omega)]

/-! ### The head of a block -/

theorem isDigit_decimal (n : Nat) (r : List Char) : isDigit ((decimal n ++ r).headD ' ') = true := by
  rw [headD_append (decimal_ne_nil n)]
  cases h : decimal n with
  | nil => exact absurd h (decimal_ne_nil n)
  | cons a b => exact decimal_digits n a (by rw [h]; simp)

theorem atoi_tail (n : Nat) {r : List Char} (hr : Tail r) : atoi (decimal n ++ r ++ ['\n']) = n := by
  have : Tail (r ++ ['\n']) := by
    intro c hc
    cases r with
    | nil => simp at hc; subst hc; decide
    | cons a b => exact hr c (by simpa using hc)
  rw [List.append_assoc, atoi, strtol_decimal n this]

theorem readDimens_ok {V} (db : Db V) : ∀ (ds : List (List Char)), (∀ d ∈ ds, Fits d ∧ d.length ≤ 48) → ∀ r,
    readDimens db ds ⟨unlines (ds ++ r), false⟩ = .ok ⟨unlines r, false⟩
  | [], _, r => by simp [readDimens]
  | d :: ds, h, r => by
    have hd := h d (by simp)
    have hg : fgets MAXDIMLEN ⟨unlines (d :: (ds ++ r)), false⟩ = some (d ++ ['\n'], ⟨unlines (ds ++ r), false⟩) := by
      rw [unlines_cons]
      exact fgets_line hd.1.1 (by show d.length + 2 ≤ 50; omega) _ _
    rw [List.cons_append, readDimens, must, hg]
    simp only [Out.bind, List.dropLast_concat, ne_eq, not_true_eq_false, if_false]
    exact readDimens_ok db ds (fun x hx => h x (by simp [hx])) r

theorem code_ne (t : Ty) : (t.code : Int) ≠ 0 := by cases t <;> simp [Ty.code]

theorem readDecl_ok {V} (dimVal : List Char → Int) (db : Db V) {p : Par V} {b : Block} (hb : b.Ok) (hp : b.For p)
    (r : List (List Char)) :
    readDecl dimVal db p ⟨unlines ((decimal b.dims.length ++ b.p1) :: b.dims ++
      [decimal b.size ++ b.p2, decimal b.type.code ++ b.p3] ++ r), false⟩ = .ok (db, ⟨unlines r, false⟩) := by
  obtain ⟨h1, h2, h3⟩ := hp
  have hl := hb.lines
  simp only [Block.body] at hl
  have f1 : Fits (decimal b.dims.length ++ b.p1) := hl _ (by simp)
  have f2 : Fits (decimal b.size ++ b.p2) := hl _ (by simp)
  have f3 : Fits (decimal b.type.code ++ b.p3) := hl _ (by simp)
  have f4 : ∀ d ∈ b.dims, Fits d ∧ d.length ≤ 48 := fun d hd => ⟨hl _ (by simp [hd]), hb.dims.2 d hd⟩
  simp only [List.cons_append, List.append_assoc, List.nil_append]
  rw [readDecl, must_fits f1]
  simp only [Out.bind]
  rw [List.append_assoc, isDigit_decimal, if_pos rfl, ← List.append_assoc, atoi_tail _ hb.p1, h1]
  simp only [ne_eq, not_true_eq_false, if_false, hb.dims.1]
  rw [readDimens_ok _ _ f4]
  simp only []
  rw [must_fits f2]
  simp only []
  rw [atoi_tail _ hb.p2]
  have : ¬ (b.size : Int) = 0 := by have := hb.size; omega
  simp only [this, if_false, h2, not_true_eq_false]
  rw [readType, must_fits f3]
  simp only [Out.bind]
  rw [atoi_tail _ hb.p3]
  simp only [code_ne, if_false, h3, ne_eq, not_true_eq_false]

/-- The first word of a line with a name. -/
theorem strtok_name {name rest : List Char} (hn : name ≠ [] ∧ ' ' ∉ name ∧ '\n' ∉ name)
    (hr : ∀ c, rest.head? = some c → c = ' ') :
    ∃ t ts, strtok (fun c => decide (c = ' ')) (name ++ rest ++ ['\n']) = t :: ts ∧
      t.takeWhile (fun c => decide (c ≠ '\n')) = name := by
  have hw : ∀ c ∈ name, (decide (c = ' ')) = false := by
    intro c hc; simp only [decide_eq_false_iff_not]; rintro rfl; exact hn.2.1 hc
  have hnl : ∀ c ∈ name, (decide (c ≠ '\n')) = true := by
    intro c hc; simp only [decide_eq_true_eq]; rintro rfl; exact hn.2.2 hc
  cases rest with
  | nil =>
    have : ∀ c ∈ name ++ ['\n'], (decide (c = ' ')) = false := by
      intro c hc
      rcases List.mem_append.1 hc with hc | hc
      · exact hw c hc
      · simp only [List.mem_singleton] at hc; subst hc; decide
    refine ⟨name ++ ['\n'], [], ?_, ?_⟩
    · have hl := strtok_layout (p := fun c => decide (c = ' ')) [(name ++ ['\n'], [])]
        ⟨by simp, this, by simp, by simp, trivial⟩
      simpa [layout] using hl
    · rw [List.takeWhile_append_of_pos hnl]; simp
  | cons a s =>
    have := hr a rfl
    subst this
    refine ⟨name, strtok (fun c => decide (c = ' ')) (s ++ ['\n']), ?_, ?_⟩
    · unfold strtok
      rw [List.append_assoc, List.cons_append, splitBy_word_sep hw (by decide), List.filter_cons]
      simp [hn.1]
    · have := List.takeWhile_append_of_pos (l₂ := []) hnl
      simpa using this

theorem head_listed {V} (dimVal : List Char → Int) {fuel : Nat} {db : Db V} {line : List Char} {st : Stream} {b : Block}
    (hb : b.Ok) {p : Par V} (hp : find db b.name = some p) (hf : b.For p) {r : List (List Char)}
    (hs : (skipTo fuel line st : Out V Stream) = .ok ⟨unlines (b.body ++ r), false⟩) :
    ∃ w f, head dimVal fuel db line st = .ok (some b.name,
      update b.name (fun q => { q with readIn := true, width := w, format := f }) db, [],
      ⟨unlines (b.sec.map SecLine.render ++ r), false⟩) := by
  have hl := hb.lines
  have f0 : Fits (b.name ++ b.rest) := hl _ (by simp [Block.body])
  obtain ⟨t, ts, h1, h2⟩ := strtok_name ⟨hb.name.1, hb.name.2.1, hb.name.2.2.1⟩ hb.rest
  refine ⟨widthOf ts, formatOf ts, ?_⟩
  rw [head, hs]
  simp only [Out.bind, Block.body, List.cons_append]
  rw [must_fits f0]
  simp only []
  rw [h1]
  simp only [h2]
  rw [if_neg (by show ¬ b.name.length ≥ 50; have := hb.name.2.2.2; omega), hp]
  simp only []
  have := readDecl_ok dimVal (update b.name (fun q => { q with readIn := true, width := widthOf ts, format := formatOf ts }) db)
    hb hf (b.sec.map SecLine.render ++ r)
  simp only [List.cons_append, List.append_assoc, List.nil_append] at this ⊢
  rw [this]

theorem head_unknown {V} (dimVal : List Char → Int) {fuel : Nat} {db : Db V} {line : List Char} {st : Stream}
    {hd name rest : List Char} {body : List (List Char)} (he : Entry.Good db (.unknown hd name rest body))
    {r : List (List Char)}
    (hs : (skipTo fuel line st : Out V Stream) = .ok ⟨unlines ((name ++ rest) :: body ++ r), false⟩) :
    head dimVal fuel db line st = .ok (none, db, name, ⟨unlines (body ++ r), false⟩) := by
  obtain ⟨g1, g2, g3, g4, g5, g6, g7⟩ := he
  obtain ⟨t, ts, h1, h2⟩ := strtok_name ⟨g4.1, g4.2.1, g4.2.2.1⟩ g6
  rw [head, hs]
  simp only [Out.bind, List.cons_append]
  rw [must_fits g2]
  simp only []
  rw [h1]
  simp only [h2]
  rw [if_neg (by show ¬ name.length ≥ 50; have := g4.2.2.2; omega), g7]

/-! ### Entries -/

theorem skipTo_head {V} {n : Nat} {line : List Char} (h : isHead line = true) (st : Stream) :
    (skipTo (n + 1) line st : Out V Stream) = .ok st := by simp [skipTo, h]

theorem skipTo_lines {V} : ∀ (ls : List (List Char)), (∀ l ∈ ls, Fits l ∧ ¬ IsHeader l) → ∀ {h : List Char},
    IsHeader h → Fits h → ∀ {line : List Char}, isHead line = false → ∀ (r : List (List Char)) {n : Nat}, ls.length + 2 ≤ n →
    (skipTo n line ⟨unlines (ls ++ h :: r), false⟩ : Out V Stream) = .ok ⟨unlines r, false⟩
  | [], _, h, hh, hf, line, hl, r, n, hn => by
    obtain ⟨m, rfl⟩ : ∃ m, n = m + 2 := ⟨n - 2, by simp at hn; omega⟩
    rw [skipTo, hl]
    simp only [Bool.false_eq_true, if_false, List.nil_append]
    rw [fgets_fits hf]
    exact skipTo_head ((take4_newline h).2 hh) _
  | l :: ls, hok, h, hh, hf, line, hl, r, n, hn => by
    obtain ⟨m, rfl⟩ : ∃ m, n = m + 1 := ⟨n - 1, by simp at hn; omega⟩
    obtain ⟨f1, f2⟩ := hok l (by simp)
    rw [skipTo, hl]
    simp only [Bool.false_eq_true, if_false, List.cons_append]
    rw [fgets_fits f1]
    refine skipTo_lines ls (fun x hx => hok x (by simp [hx])) hh hf ?_ r (by simp at hn ⊢; omega)
    cases hx : isHead (l ++ ['\n']) with
    | false => rfl
    | true => exact absurd ((take4_newline l).1 hx) f2

theorem entry_hd_header (e : Entry) : IsHeader e.hd := by
  cases e <;> exact ⟨_, rfl⟩

theorem entry_hd_fits {V} {db : Db V} {e : Entry} (h : e.Good db) : Fits e.hd := by
  cases e with
  | listed b => exact h.1.hd
  | unknown hd name rest body => exact h.1

theorem entry_count (e : Entry) : 2 ≤ e.lines.length := by
  cases e <;> simp [Entry.lines, Entry.body, Block.body]

theorem look_update_of {V} {db : Db V} {key : List Char} {f : Par V → Par V} (hf : ∀ p, (f p).name = p.name)
    (n : List Char) : look (update key f db) n = if n = key then (find db n).map (fun p => (f p).vals) else look db n := by
  unfold look
  rw [find_update key f hf]
  split
  · simp [Function.comp_def]
  · rfl

theorem stored_update {V} {db : Db V} (h : Stored db) {key : List Char} {f : Par V → Par V}
    (hf : ∀ p, p ∈ db → (f p).vals.length = (f p).size ∧ (f p).desc.length = (f p).size) : Stored (update key f db) := by
  intro q hq
  rcases mem_update hq with hq | ⟨p, h1, rfl⟩
  · exact h q hq
  · exact hf p (find_mem h1).1

/-- The state before the entries that are left: the header line has been read, or it is still to come
after lines to be skipped, or the file has ended. -/
inductive Ready : List Char → Stream → List Entry → Prop
  | stop (line : List Char) : Ready line ⟨[], true⟩ []
  | here (e : Entry) (es : List Entry) :
      Ready (e.hd ++ ['\n']) ⟨unlines (e.body ++ es.flatMap Entry.lines), false⟩ (e :: es)
  | later (line : List Char) (ls : List (List Char)) (e : Entry) (es : List Entry) :
      isHead line = false → (∀ l ∈ ls, Fits l ∧ ¬ IsHeader l) →
      Ready line ⟨unlines (ls ++ (e :: es).flatMap Entry.lines), false⟩ (e :: es)

theorem unlines_length (ls : List (List Char)) : ls.length ≤ (unlines ls).length := by
  induction ls with
  | nil => simp [unlines]
  | cons l ls ih => rw [unlines_cons]; simp; omega

theorem Ready.skip {V} {db : Db V} {line : List Char} {st : Stream} {e : Entry} {es : List Entry} (h : Ready line st (e :: es))
    (he : e.Good db) {fuel : Nat} (hf : st.rest.length + 2 ≤ fuel) :
    (skipTo fuel line st : Out V Stream) = .ok ⟨unlines (e.body ++ es.flatMap Entry.lines), false⟩ ∧
      (unlines (e.body ++ es.flatMap Entry.lines)).length ≤ st.rest.length ∧ st.eof = false := by
  cases h with
  | here =>
    obtain ⟨m, rfl⟩ : ∃ m, fuel = m + 1 := ⟨fuel - 1, by omega⟩
    exact ⟨skipTo_head ((take4_newline _).2 (entry_hd_header e)) _, Nat.le_refl _, rfl⟩
  | later _ ls _ _ h1 h2 =>
    have hu := unlines_length (ls ++ (e :: es).flatMap Entry.lines)
    simp only [List.flatMap_cons, Entry.lines, List.cons_append, List.length_append, List.length_cons] at hf hu ⊢
    refine ⟨skipTo_lines ls h2 (entry_hd_header e) (entry_hd_fits he) h1 _ (by omega), ?_, trivial⟩
    rw [unlines_append ls, unlines_cons]
    simp only [List.length_append, List.length_cons]
    omega

theorem follows_entries {V} {db : Db V} : ∀ {es : List Entry}, (∀ e ∈ es, e.Good db) → Follows (es.flatMap Entry.lines)
  | [], _ => Or.inl rfl
  | e :: es, h => Or.inr ⟨e.hd, e.body ++ es.flatMap Entry.lines, by simp [Entry.lines], entry_hd_header e,
      entry_hd_fits (h e (by simp))⟩

theorem ready_next {es : List Entry} {line st} (h : Next (es.flatMap Entry.lines) line st) : Ready line st es := by
  cases es with
  | nil =>
    cases h with
    | stop => exact .stop _
    | head l r h1 => simp at h1
  | cons e es =>
    cases h with
    | stop h => simp [Entry.lines] at h
    | head l r h1 =>
      simp only [List.flatMap_cons, Entry.lines, List.cons_append, List.cons.injEq] at h1
      obtain ⟨rfl, rfl⟩ := h1
      exact .here e es

/-- Reading the values of a listed block. -/
theorem values_listed {V} {conv : Ty → List Char → V} (hc : NewlineOk conv) {fuel : Nat} {db : Db V} {b : Block}
    (hb : b.Ok) {p : Par V} (hp : find db b.name = some p) (hf : b.For p) (hs : Stored db) (ht : total b.sec = b.size)
    {r : List (List Char)} {line st} (hr : Next r line st) (hfuel : b.sec.length + 1 ≤ fuel) :
    ∃ vs ds, vs = expand (conv b.type) b.sec ∧ ds.length = p.size ∧
      values conv fuel db p ⟨unlines (b.sec.map SecLine.render ++ r), false⟩ =
        .ok (update b.name (fun q => { q with vals := vs, desc := ds }) db, line, st) := by
  obtain ⟨hv, hd⟩ := hs p (find_mem hp).1
  obtain ⟨n, rfl⟩ : ∃ n, fuel = n + 1 + b.sec.length := ⟨fuel - 1 - b.sec.length, by omega⟩
  obtain ⟨c', h1, h2⟩ := valLines_sec hc p.type hv b.sec hb.sec [] ⟨0, p.vals, p.desc⟩ ⟨rfl, by simp, hd⟩
    (by intro a s l hal; have := hb.notes a s l hal; simpa using this) (by simp [ht, hf.2.1]) (n + 1) r
  refine ⟨c'.vals, c'.desc, ?_, h1.desc, ?_⟩
  · have := h1.vals
    have hlen := length_expand (conv p.type) b.sec
    rw [this, List.nil_append, List.drop_of_length_le (by rw [hlen, ht, hv, hf.2.1]),
      List.append_nil, hf.2.2]
  · rw [values, h2, valLines_end hr]
    simp only [Out.bind]
    have hi := h1.i
    rw [List.nil_append, length_expand, ht] at hi
    rw [if_neg (by rw [hi, hf.2.1]; omega), if_neg (by rw [hi, hf.2.1]; omega), (find_mem hp).2]

/-- The two changes of the table made for a listed block. -/
theorem table_listed {V} {db : Db V} (hs : Stored db) {name : List Char} {p : Par V} (hp : find db name = some p)
    (w : Int) (f : Option (List Char)) {vs : List V} {ds : List (Option (List Char))} (h1 : vs.length = p.size)
    (h2 : ds.length = p.size) :
    let db1 := update name (fun q => { q with readIn := true, width := w, format := f }) db
    let db2 := update name (fun q => { q with vals := vs, desc := ds }) db1
    Stored db1 ∧ Stored db2 ∧ decls db1 = decls db ∧ decls db2 = decls db ∧
    (∃ p1, find db1 name = some p1 ∧ p1.dims = p.dims ∧ p1.size = p.size ∧ p1.type = p.type) ∧
    ∀ n, look db2 n = if n = name then some vs else look db n := by
  intro db1 db2
  have hs1 : Stored db1 := stored_update hs (fun q hq => hs q hq)
  have hfd : find db1 name = some { p with readIn := true, width := w, format := f } := by
    simp only [db1]
    rw [find_update name (fun q => { q with readIn := true, width := w, format := f }) (fun _ => rfl)]
    simp [hp]
  have hs2 : Stored db2 := by
    intro q hq
    rcases mem_update hq with hq | ⟨p', h3, rfl⟩
    · exact hs1 q hq
    · rw [hfd] at h3
      simp only [Option.some.injEq] at h3
      subst h3
      exact ⟨h1, h2⟩
  have hd1 : decls db1 = decls db :=
    decls_update name (fun q => { q with readIn := true, width := w, format := f }) (fun _ => ⟨rfl, rfl, rfl, rfl⟩) db
  refine ⟨hs1, hs2, hd1, (decls_update name (fun q => { q with vals := vs, desc := ds }) (fun _ => ⟨rfl, rfl, rfl, rfl⟩) db1).trans hd1, ⟨_, hfd, rfl, rfl, rfl⟩, ?_⟩
  intro n
  simp only [db2]
  rw [look_update_of (f := fun q => { q with vals := vs, desc := ds }) (fun _ => rfl)]
  split
  · rename_i h; subst h; simp [hfd]
  · rename_i h
    simp only [db1]
    rw [look_update_of (f := fun q => { q with readIn := true, width := w, format := f }) (fun _ => rfl), if_neg h]

theorem endsListed_tail {e : Entry} {es : List Entry} (h : EndsListed (e :: es)) : EndsListed es := by
  intro a b c d hx
  cases es with
  | nil => simp at hx
  | cons x y => exact h a b c d (by rw [List.getLast?_cons_cons]; exact hx)

/-- The entries one after the other; what follows them is left to `k`. -/
theorem readLoop_entries {V} {conv : Ty → List Char → V} (hc : NewlineOk conv) (dimVal : List Char → Int) {fuel : Nat} :
    ∀ (es : List Entry) (tl : List Entry) (db : Db V) (line : List Char) (st : Stream) (n : Nat), Stored db →
      (∀ e ∈ es, e.Good db) → Ready line st (es ++ tl) → (tl = [] → EndsListed es) →
      (∀ e es', tl = e :: es' → Fits e.hd) → st.rest.length + 2 ≤ fuel →
      ∃ db' line' st', Stored db' ∧ decls db' = decls db ∧ look db' = es.foldl (assign conv) (look db) ∧
        Ready line' st' tl ∧ st'.rest.length ≤ st.rest.length ∧
        readLoop conv dimVal fuel (n + es.length) db line st = readLoop conv dimVal fuel n db' line' st'
  | [], tl, db, line, st, n, hs, _, hr, _, _, _ => ⟨db, line, st, hs, rfl, rfl, hr, Nat.le_refl _, rfl⟩
  | e :: es, tl, db, line, st, n, hs, hg, hr, hl, ht, hfuel => by
    have he := hg e (by simp)
    rw [List.cons_append] at hr
    obtain ⟨k1, k2, k3⟩ := hr.skip he hfuel
    have hfol : Follows ((es ++ tl).flatMap Entry.lines) := by
      cases es with
      | cons x xs =>
        exact Or.inr ⟨x.hd, x.body ++ (xs ++ tl).flatMap Entry.lines, by simp [Entry.lines], entry_hd_header x,
          entry_hd_fits (hg x (by simp))⟩
      | nil =>
        cases tl with
        | nil => exact Or.inl rfl
        | cons x xs =>
          exact Or.inr ⟨x.hd, x.body ++ xs.flatMap Entry.lines, by simp [Entry.lines], entry_hd_header x, ht x xs rfl⟩
    rw [List.length_cons, ← Nat.add_assoc, readLoop, k3]
    simp only [Bool.false_eq_true, if_false]
    cases e with
    | listed b =>
      obtain ⟨hb, ⟨p, hp, hf⟩, htot⟩ := he
      obtain ⟨w, f, hh⟩ := head_listed dimVal hb hp hf k1
      rw [hh]
      simp only [Out.bind]
      have hlen := length_expand (conv b.type) b.sec
      have hps : (expand (conv b.type) b.sec).length = p.size := by rw [hlen, htot, hf.2.1]
      obtain ⟨line', st', hnext⟩ := hfol.next
      obtain ⟨q1, q2, q3, q4, ⟨p1, q5, q6⟩, q7⟩ := table_listed hs hp w f hps (ds := p.desc) (hs p (find_mem hp).1).2
      have hbound : b.sec.length + 1 ≤ fuel := by
        have := unlines_length (b.body ++ (es ++ tl).flatMap Entry.lines)
        simp only [Entry.body] at k2
        simp only [Block.body, List.length_append, List.length_cons, List.length_map] at this k2
        omega
      obtain ⟨vs, ds, h1, h2, h3⟩ := values_listed hc hb q5 ⟨q6.1.trans hf.1, q6.2.1.trans hf.2.1, q6.2.2.trans hf.2.2⟩ q1 htot hnext hbound
      subst h1
      obtain ⟨r1, r2, r3, r4, r5, r6⟩ := table_listed hs hp w f hps (ds := ds) (h2.trans q6.2.1)
      rw [q5]
      simp only []
      rw [h3]
      simp only []
      have hsl : st'.rest.length ≤ st.rest.length := by
        refine Nat.le_trans ?_ k2
        cases hnext with
        | stop => simp
        | head l r' hx =>
          rw [hx, unlines_append, unlines_cons]
          simp only [List.length_append, List.length_cons]
          omega
      obtain ⟨db', line2, st2, g1, g2, g3, g4, g5, g6⟩ := readLoop_entries (fuel := fuel) hc dimVal es tl _ line' st' n r2
        (fun x hx => (hg x (by simp [hx])).mono r4) (ready_next hnext)
        (fun h => endsListed_tail (hl h)) ht (by omega)
      refine ⟨db', line2, st2, g1, g2.trans r4, ?_, g4, by omega, g6⟩
      rw [g3, List.foldl_cons]
      congr 1
      funext n
      simp only [assign]
      exact r6 n
    | unknown hd name rest body =>
      rw [head_unknown dimVal he k1]
      simp only [Out.bind]
      have hne : es ++ tl ≠ [] := by
        intro hx
        simp only [List.append_eq_nil_iff] at hx
        obtain ⟨rfl, rfl⟩ := hx
        exact hl rfl hd name rest body rfl
      obtain ⟨x, xs, hx⟩ := List.exists_cons_of_ne_nil hne
      have hready : Ready name ⟨unlines (body ++ (es ++ tl).flatMap Entry.lines), false⟩ (es ++ tl) := by
        rw [hx]
        refine .later name body x xs ?_ he.2.2.1
        cases hh : isHead name with
        | false => rfl
        | true => exact absurd ((isHead_iff name).1 hh) he.2.2.2.2.1
      have hsl : (unlines (body ++ (es ++ tl).flatMap Entry.lines)).length ≤ st.rest.length := by
        refine Nat.le_trans ?_ k2
        simp only [Entry.body, List.cons_append]
        rw [unlines_cons]
        simp only [List.length_append, List.length_cons]
        omega
      obtain ⟨db', line2, st2, g1, g2, g3, g4, g5, g6⟩ := readLoop_entries (fuel := fuel) hc dimVal es tl db name _ n hs
        (fun x hx => hg x (by simp [hx])) hready (fun h => endsListed_tail (hl h)) ht (by simp only; omega)
      exact ⟨db', line2, st2, g1, g2, g3, g4, Nat.le_trans g5 hsl, g6⟩

end Verif.ParFile
