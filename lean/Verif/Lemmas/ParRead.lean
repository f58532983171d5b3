import Verif.Lemmas.ParFile
/- Reading whole files: well-formed ones, ones with a wrong number of values, saved ones. -/
namespace Verif.ParFile
open Verif.CText Verif.CFile

theorem starts_newline {label : List Char} (h16 : label.length = 16) (hn : '\n' ∉ label) (l : List Char) :
    starts label (l ++ ['\n']) = true ↔ label <+: l := by
  simp only [starts, decide_eq_true_eq]
  constructor
  · intro h
    by_cases hl : 16 ≤ l.length
    · rw [List.take_append_of_le_length hl] at h
      rw [← h]; exact List.take_prefix _ _
    · exfalso
      apply hn
      rw [← h, List.take_of_length_le (by simp; omega)]; simp
  · rintro ⟨t, rfl⟩
    rw [List.append_assoc, ← h16, List.take_left']
    rfl

theorem starts_par (l : List Char) : starts parLabel (l ++ ['\n']) = true ↔ "** Parameters **".toList <+: l :=
  starts_newline (by decide) (by decide) l

theorem starts_par_false {l : List Char} (h : ¬ "** Parameters **".toList <+: l) : starts parLabel (l ++ ['\n']) = false := by
  cases hh : starts parLabel (l ++ ['\n']) with
  | false => rfl
  | true => exact absurd ((starts_par l).1 hh) h

/-- The state at the first line of `r`. -/
def Begin (line : List Char) (st : Stream) (r : List (List Char)) : Prop :=
  (r = [] ∧ st = ⟨[], true⟩) ∨ ∃ l r', r = l :: r' ∧ line = l ++ ['\n'] ∧ st = ⟨unlines r', false⟩

theorem skipDims_ok {V} (db : Db V) : ∀ (ls : List (List Char)),
    (∀ l ∈ ls, Fits l ∧ ¬ "** Parameters **".toList <+: l) → ∀ (lab : List Char), Fits ("** Parameters **".toList ++ lab) →
    ∀ (r : List (List Char)), (∀ l r', r = l :: r' → Fits l) → ∀ (line : List Char), starts parLabel line = false →
    ∀ (n : Nat), ls.length + 2 ≤ n →
    ∃ line' st', Begin line' st' r ∧
      skipDims db n line ⟨unlines (ls ++ ("** Parameters **".toList ++ lab) :: r), false⟩ = .ok (line', st')
  | [], _, lab, hlab, r, hr, line, hl, n, hn => by
    obtain ⟨m, rfl⟩ : ∃ m, n = m + 2 := ⟨n - 2, by simp at hn; omega⟩
    rw [skipDims, hl, List.nil_append, fgets_fits hlab]
    simp only [Bool.false_eq_true, if_false]
    rw [skipDims, (starts_par _).2 ⟨lab, rfl⟩]
    simp only [if_true]
    cases r with
    | nil => exact ⟨_, _, Or.inl ⟨rfl, rfl⟩, by rw [unlines_nil, fgets_nil]⟩
    | cons l r' => exact ⟨_, _, Or.inr ⟨l, r', rfl, rfl, rfl⟩, by rw [fgets_fits (hr l r' rfl)]⟩
  | l :: ls, hok, lab, hlab, r, hr, line, hl, n, hn => by
    obtain ⟨m, rfl⟩ : ∃ m, n = m + 1 := ⟨n - 1, by simp at hn; omega⟩
    obtain ⟨f1, f2⟩ := hok l (by simp)
    rw [skipDims, hl, List.cons_append, fgets_fits f1]
    simp only [Bool.false_eq_true, if_false]
    exact skipDims_ok db ls (fun x hx => hok x (by simp [hx])) lab hlab r hr _ (starts_par_false f2) m
      (by simp at hn ⊢; omega)

theorem skipDims_label {V} (db : Db V) {lab : List Char} {r : List (List Char)} (hr : ∀ l r', r = l :: r' → Fits l) (n : Nat) :
    ∃ line' st', Begin line' st' r ∧
      skipDims db (n + 1) ("** Parameters **".toList ++ lab ++ ['\n']) ⟨unlines r, false⟩ = .ok (line', st') := by
  rw [skipDims, (starts_par _).2 ⟨lab, rfl⟩]
  simp only [if_true]
  cases r with
  | nil => exact ⟨_, _, Or.inl ⟨rfl, rfl⟩, by rw [unlines_nil, fgets_nil]⟩
  | cons l r' => exact ⟨_, _, Or.inr ⟨l, r', rfl, rfl, rfl⟩, by rw [fgets_fits (hr l r' rfl)]⟩

/-- `rp` on a file with a part before the parameters. -/
theorem rp_begin {V} (conv : Ty → List Char → V) (dimVal : List Char → Int) (db : Db V) {before : List (List Char)}
    (hb : ∀ l ∈ before, Fits l ∧ ¬ "** Parameters **".toList <+: l) {lab : List Char}
    (hlab : Fits ("** Parameters **".toList ++ lab)) {r : List (List Char)} (hr : ∀ l r', r = l :: r' → Fits l)
    {text : List Char} (ht : text = unlines (before ++ ("** Parameters **".toList ++ lab) :: r)) :
    ∃ line st, Begin line st r ∧
      rp conv dimVal db (some text) 0 = readLoop conv dimVal (text.length + 2) (text.length + 2) db line st := by
  have hu := unlines_length (before ++ ("** Parameters **".toList ++ lab) :: r)
  rw [← ht] at hu
  simp only [List.length_append, List.length_cons] at hu
  unfold rp
  simp only [openText]
  cases before with
  | nil =>
    obtain ⟨line, st, h1, h2⟩ := skipDims_label db (lab := lab) hr (text.length + 1)
    refine ⟨line, st, h1, ?_⟩
    have : fgets MAXLNLEN ⟨text, false⟩ = some ("** Parameters **".toList ++ lab ++ ['\n'], ⟨unlines r, false⟩) := by
      rw [ht]; exact fgets_fits hlab _ _
    rw [this]
    simp only [if_true, h2, Out.bind]
  | cons l ls =>
    obtain ⟨f1, f2⟩ := hb l (by simp)
    obtain ⟨line, st, h1, h2⟩ := skipDims_ok db ls (fun x hx => hb x (by simp [hx])) lab hlab r hr _ (starts_par_false f2)
      (text.length + 2) (by simp at hu ⊢; omega)
    refine ⟨line, st, h1, ?_⟩
    have : fgets MAXLNLEN ⟨text, false⟩ =
        some (l ++ ['\n'], ⟨unlines (ls ++ ("** Parameters **".toList ++ lab) :: r), false⟩) := by
      rw [ht]; exact fgets_fits f1 _ _
    rw [this]
    simp only [if_true, h2, Out.bind]

theorem begin_ready {line : List Char} {st : Stream} {es : List Entry} (h : Begin line st (es.flatMap Entry.lines)) :
    Ready line st es := by
  cases es with
  | nil =>
    rcases h with ⟨_, rfl⟩ | ⟨l, r', h1, _⟩
    · exact .stop _
    · simp at h1
  | cons e es =>
    rcases h with ⟨h1, _⟩ | ⟨l, r', h1, rfl, rfl⟩
    · simp [Entry.lines] at h1
    · simp only [List.flatMap_cons, Entry.lines, List.cons_append, List.cons.injEq] at h1
      obtain ⟨rfl, rfl⟩ := h1
      exact .here e es

theorem begin_length {line : List Char} {st : Stream} {r : List (List Char)} (h : Begin line st r) :
    st.rest.length ≤ (unlines r).length := by
  rcases h with ⟨_, rfl⟩ | ⟨l, r', rfl, _, rfl⟩
  · simp
  · rw [unlines_cons]; simp; omega

theorem first_fits {es : List Entry} (h : ∀ e es', es = e :: es' → Fits e.hd) :
    ∀ l r', es.flatMap Entry.lines = l :: r' → Fits l := by
  intro l r' hl
  cases es with
  | nil => simp at hl
  | cons e es =>
    simp only [List.flatMap_cons, Entry.lines, List.cons_append, List.cons.injEq] at hl
    rw [← hl.1]; exact h e es rfl

theorem entries_count (es : List Entry) : es.length ≤ (es.flatMap Entry.lines).length := by
  induction es with
  | nil => simp
  | cons e es ih => have := entry_count e; simp only [List.flatMap_cons, List.length_append, List.length_cons]; omega

/-- The loop on all entries of a good list. -/
theorem readLoop_good {V} {conv : Ty → List Char → V} (hc : NewlineOk conv) (dimVal : List Char → Int) {fuel n : Nat}
    {es : List Entry} {db : Db V} {line : List Char} {st : Stream} (hs : Stored db) (hg : ∀ e ∈ es, e.Good db)
    (hr : Ready line st es) (hl : EndsListed es) (hf : st.rest.length + 2 ≤ fuel) (hn : es.length + 1 ≤ n) :
    ∃ db', Stored db' ∧ decls db' = decls db ∧ look db' = es.foldl (assign conv) (look db) ∧
      readLoop conv dimVal fuel n db line st = .ret none db' := by
  obtain ⟨m, rfl⟩ : ∃ m, n = m + 1 + es.length := ⟨n - 1 - es.length, by omega⟩
  obtain ⟨db', line', st', h1, h2, h3, h4, h5, h6⟩ := readLoop_entries hc dimVal es [] db line st (m + 1) hs hg
    (by simpa using hr) (fun _ => hl) (by simp) hf
  refine ⟨db', h1, h2, h3, ?_⟩
  rw [h6]
  cases h4
  simp [readLoop]

theorem values_wrong {V} {conv : Ty → List Char → V} (hc : NewlineOk conv) {fuel : Nat} {db : Db V} {b : Block}
    (hb : b.Ok) {p : Par V} (hp : find db b.name = some p) (hf : b.For p) (hs : Stored db) (ht : total b.sec ≠ b.size)
    {r : List (List Char)} {line st} (hr : Next r line st) (hfuel : b.sec.length + 1 ≤ fuel) :
    ∃ ds, ds.length = p.size ∧
      values conv fuel db p ⟨unlines (b.sec.map SecLine.render ++ r), false⟩ =
        .ret (some (if total b.sec < b.size then .few else .many))
          (update b.name (fun q => { q with
            vals := (expand (conv b.type) b.sec ++ p.vals.drop (total b.sec)).take b.size, desc := ds }) db) := by
  obtain ⟨hv, hd⟩ := hs p (find_mem hp).1
  obtain ⟨n, rfl⟩ : ∃ n, fuel = n + 1 + b.sec.length := ⟨fuel - 1 - b.sec.length, by omega⟩
  have hlen := length_expand (conv p.type) b.sec
  obtain ⟨f1, f2, f3⟩ := hf
  rcases Nat.lt_or_gt_of_ne ht with hlt | hgt
  · obtain ⟨c', h1, h2⟩ := valLines_sec hc p.type hv b.sec hb.sec [] ⟨0, p.vals, p.desc⟩ ⟨rfl, by simp, hd⟩
      (by intro a s l hal; have := hb.notes a s l hal; simpa using this) (by simp; omega) (n + 1) r
    refine ⟨c'.desc, h1.desc, ?_⟩
    rw [values, h2, valLines_end hr]
    simp only [Out.bind]
    have hi := h1.i
    rw [List.nil_append, hlen] at hi
    rw [if_pos (by rw [hi]; omega), if_pos hlt, (find_mem hp).2]
    have hvals := h1.vals
    rw [List.nil_append, hlen, f3] at hvals
    rw [hvals, List.take_of_length_le]
    rw [← f3]; simp [hlen]; omega
  · obtain ⟨line', st', c', h1, h2, h3, h4⟩ := valLines_over hc p.type hv b.sec hb.sec [] ⟨0, p.vals, p.desc⟩ ⟨rfl, by simp, hd⟩
      (by intro a s l hal; have := hb.notes a s l hal; simpa using this) (by simp) (by simp; omega) (n + 1) r
    refine ⟨c'.desc, h3, ?_⟩
    rw [values, h4]
    simp only [Out.bind]
    rw [if_neg (by rw [h1]; omega), if_pos (by rw [h1]; omega), if_neg (by omega), (find_mem hp).2, h2]
    rw [List.nil_append, f3, f2, List.take_append_of_le_length (by rw [← f3, hlen]; omega)]

/-- The entries before a block with a wrong number of values, and that block. -/
theorem readLoop_wrong {V} {conv : Ty → List Char → V} (hc : NewlineOk conv) (dimVal : List Char → Int) {fuel n : Nat}
    {es : List Entry} {b : Block} {tl : List Entry} {db : Db V} {line : List Char} {st : Stream} (hs : Stored db)
    (hg : ∀ e ∈ es, e.Good db) (hb : b.Ok) (hp : ∃ p, find db b.name = some p ∧ b.For p) (ht : total b.sec ≠ b.size)
    (htl : ∀ e es', tl = e :: es' → Fits e.hd)
    (hr : Ready line st (es ++ .listed b :: tl)) (hf : st.rest.length + 2 ≤ fuel) (hn : es.length + 1 ≤ n) :
    ∃ db' old, Stored db' ∧ decls db' = decls db ∧ es.foldl (assign conv) (look db) b.name = some old ∧
      (∀ n, look db' n = if n = b.name then some ((expand (conv b.type) b.sec ++ old.drop (total b.sec)).take b.size)
        else es.foldl (assign conv) (look db) n) ∧
      readLoop conv dimVal fuel n db line st = .ret (some (if total b.sec < b.size then .few else .many)) db' := by
  obtain ⟨m, rfl⟩ : ∃ m, n = m + 1 + es.length := ⟨n - 1 - es.length, by omega⟩
  obtain ⟨db1, line1, st1, h1, h2, h3, h4, h5, h6⟩ := readLoop_entries hc dimVal es (.listed b :: tl) db line st (m + 1) hs hg
    hr (by simp) (by intro e es' he; simp only [List.cons.injEq] at he; rw [← he.1]; exact hb.hd) hf
  -- the declaration in the table as it is now
  obtain ⟨p0, hp0, hf0⟩ := hp
  have hdecl := find_decl h2 b.name
  rw [hp0] at hdecl
  cases hq : find db1 b.name with
  | none => simp [hq] at hdecl
  | some p =>
  simp only [hq, Option.map_some, Option.some.injEq, Prod.mk.injEq] at hdecl
  have hfor : b.For p := ⟨hdecl.2.1.trans hf0.1, hdecl.2.2.1.trans hf0.2.1, hdecl.2.2.2.trans hf0.2.2⟩
  obtain ⟨k1, k2, k3⟩ : (skipTo fuel line1 st1 : Out V Stream) = .ok ⟨unlines ((Entry.listed b).body ++ tl.flatMap Entry.lines), false⟩ ∧
      (unlines ((Entry.listed b).body ++ tl.flatMap Entry.lines)).length ≤ st1.rest.length ∧ st1.eof = false := by
    cases h4 with
    | here =>
      obtain ⟨f', rfl⟩ : ∃ f', fuel = f' + 1 := ⟨fuel - 1, by omega⟩
      exact ⟨skipTo_head ((take4_newline _).2 (entry_hd_header _)) _, Nat.le_refl _, rfl⟩
    | later _ ls _ _ g1 g2 =>
      have hu := unlines_length (ls ++ (Entry.listed b :: tl).flatMap Entry.lines)
      simp only [List.flatMap_cons, Entry.lines, List.cons_append, List.length_append, List.length_cons] at h5 hu ⊢
      refine ⟨skipTo_lines ls g2 (entry_hd_header (.listed b)) hb.hd g1 _ (by omega), ?_, trivial⟩
      rw [unlines_append ls, unlines_cons]
      simp only [List.length_append, List.length_cons]
      omega
  have hfol : Follows (tl.flatMap Entry.lines) := by
    cases tl with
    | nil => exact Or.inl rfl
    | cons x xs =>
      exact Or.inr ⟨x.hd, x.body ++ xs.flatMap Entry.lines, by simp [Entry.lines], entry_hd_header x, htl x xs rfl⟩
  obtain ⟨line', st', hnext⟩ := hfol.next
  obtain ⟨w, f, hh⟩ := head_listed dimVal hb hq hfor k1
  obtain ⟨hv, hd⟩ := h1 p (find_mem hq).1
  have hfd : find (update b.name (fun q => { q with readIn := true, width := w, format := f }) db1) b.name =
      some { p with readIn := true, width := w, format := f } := by
    rw [find_update b.name (fun q => { q with readIn := true, width := w, format := f }) (fun _ => rfl)]
    simp [hq]
  have hs1 : Stored (update b.name (fun q => { q with readIn := true, width := w, format := f }) db1) :=
    stored_update h1 (fun q hq => h1 q hq)
  have hbound : b.sec.length + 1 ≤ fuel := by
    have := unlines_length (b.body ++ tl.flatMap Entry.lines)
    simp only [Entry.body] at k2
    simp only [Block.body, List.length_append, List.length_cons, List.length_map] at this k2
    omega
  obtain ⟨ds, g1, g2⟩ := values_wrong hc hb hfd (p := { p with readIn := true, width := w, format := f })
    ⟨hfor.1, hfor.2.1, hfor.2.2⟩ hs1 ht hnext hbound
  have hvs : ((expand (conv b.type) b.sec ++ p.vals.drop (total b.sec)).take b.size).length = p.size := by
    have := length_expand (conv b.type) b.sec
    simp [this, hv, hfor.2.1]; omega
  obtain ⟨r1, r2, r3, r4, r5, r6⟩ := table_listed h1 hq w f hvs g1
  refine ⟨_, p.vals, r2, r4.trans h2, ?_, ?_, ?_⟩
  · rw [← h3]; simp [look, hq]
  · intro n
    rw [r6 n, h3]
  · rw [h6, readLoop, k3]
    simp only [Bool.false_eq_true, if_false]
    rw [hh]
    simp only [Out.bind]
    rw [hfd]
    simp only []
    rw [g2]

/-! ### Saved files -/

theorem digitsOf_decimal (n : Nat) : digitsOf n = decimal n := by
  have hd : ∀ m, m < 10 → Char.ofNat (48 + m) = digitChar m := by decide
  induction n using Nat.strongRecOn with
  | _ n ih =>
    rw [digitsOf, decimal]
    split
    · rename_i h; rw [hd n h]
    · rw [ih (n / 10) (by omega), hd _ (Nat.mod_lt _ (by omega))]

theorem strtok_saved {t : List Char} (h : SavedText t) :
    strtok (fun c => decide (c = ' ')) (t ++ [' '] ++ ['\n']) = [t, ['\n']] := by
  have hw : ∀ c ∈ t, (decide (c = ' ')) = false := by
    intro c hc; simp only [decide_eq_false_iff_not]; rintro rfl; exact h.2.1 hc
  unfold strtok
  rw [List.append_assoc, List.singleton_append, splitBy_word_sep hw (by decide), List.filter_cons]
  simp [h.1, splitBy]

theorem saved_line {t : List Char} (h : SavedText t) :
    Fits (t ++ [' ']) ∧ isHead (t ++ [' '] ++ ['\n']) = false ∧ ¬ (t ++ [' '] ++ ['\n']).headD ' ' = '@' := by
  obtain ⟨h1, h2, h3, h4, h5, h6, h7⟩ := h
  refine ⟨⟨by simp [h3], by simp; omega⟩, ?_, ?_⟩
  · cases hh : isHead (t ++ [' '] ++ ['\n']) with
    | false => rfl
    | true =>
      exfalso
      have hx := (take4_newline _).1 hh
      obtain ⟨s, hs⟩ := hx
      by_cases hl : 4 ≤ t.length
      · apply h6
        refine ⟨t.drop 4, ?_⟩
        have : (t ++ [' ']).take 4 = ['#', '#', '#', '#'] := by rw [← hs]; simp
        rw [List.take_append_of_le_length hl] at this
        rw [← this]; exact List.take_append_drop 4 t
      · have hlen := congrArg List.length hs
        simp only [List.length_append, List.length_cons, List.length_nil] at hlen
        have hs0 : s = [] := List.length_eq_zero_iff.1 (by omega)
        have : ' ' ∈ ['#', '#', '#', '#'] ++ s := by rw [hs]; simp
        simp [hs0] at this
  · intro hx
    apply h5
    cases t with
    | nil => exact absurd rfl h1
    | cons a b =>
      simp only [List.cons_append, List.headD_cons] at hx
      subst hx
      exact ⟨b, rfl⟩

theorem words_saved {V} {conv : Ty → List Char → V} (ty : Ty) (size : Nat) {t : List Char}
    (h : SavedText t) (c : Cur V) :
    words conv ty size (strtok (fun ch => decide (ch = ' ')) (t ++ [' '] ++ ['\n'])) c =
      run size (([(1, conv ty t), (1, conv ty ['\n'])] : List (Nat × V)).map fun p => ((p.1 : Int), p.2)) c := by
  rw [words_eq_run, strtok_saved h]
  have h1 : repText t = (1, t) := by simp [repText, h.2.2.2.1]
  have h2 : repText ['\n'] = (1, ['\n']) := by decide
  simp [h1, h2]

/-- The lines of a saved parameter: every line gives its value and one more. -/
theorem valLines_saved {V} {conv : Ty → List Char → V} (ty : Ty) {size : Nat} {old : List V}
    (ho : old.length = size) : ∀ (ts : List (List Char)), (∀ t ∈ ts, SavedText t) → ∀ (e : List V) (c : Cur V), At size old e c →
    e.length ≤ size → size < e.length + 2 * ts.length → ∀ (n : Nat) (r : List (List Char)),
    ∃ line st c', c'.i = size + 1 ∧ c'.vals = (e ++ ts.flatMap fun t => [conv ty t, conv ty ['\n']]).take size ∧
      c'.desc.length = size ∧
      valLines conv ty size (n + ts.length) ⟨unlines (ts.map (fun t => t ++ [' ']) ++ r), false⟩ c = .ok (line, st, c')
  | [], _, e, c, _, h1, h2, _, _ => by simp at h2; omega
  | t :: ts, hok, e, c, hat, h1, h2, n, r => by
    have ht := hok t (by simp)
    obtain ⟨f1, f2, f3⟩ := saved_line ht
    rw [List.length_cons, ← Nat.add_assoc, List.map_cons, List.cons_append, valLines, fgets_fits f1]
    dsimp only
    rw [f2]
    simp only [Bool.false_eq_true, if_false]
    rw [if_neg f3, words_saved ty size ht c]
    have hcv : c.vals.length = size := by rw [hat.vals]; simp; omega
    have hex : ex [(1, conv ty t), (1, conv ty ['\n'])] = [conv ty t, conv ty ['\n']] := by simp [ex]
    by_cases hx : e.length + 2 ≤ size
    · rw [run_fit _ c hcv (by rw [hex, hat.i]; simpa using hx), hex]
      simp only []
      have hat1 : At size old (e ++ [conv ty t, conv ty ['\n']]) (after c [conv ty t, conv ty ['\n']]) := by
        refine ⟨?_, ?_, hat.desc⟩
        · simp [after, hat.i]
        · simp only [after, hat.i, hat.vals]
          rw [List.take_append_of_le_length (by simp), List.take_of_length_le (by simp)]
          rw [List.drop_append, List.drop_of_length_le (by omega), List.drop_drop]
          simp only [List.nil_append, List.append_assoc, List.length_append]
          congr 3
          omega
      obtain ⟨line, st, c', g1, g2, g3, g4⟩ := valLines_saved ty ho ts (fun x hx => hok x (by simp [hx])) _ _ hat1
        (by simpa using hx) (by simp at h2 ⊢; omega) n r
      refine ⟨line, st, c', g1, ?_, g3, g4⟩
      rw [g2, List.flatMap_cons, List.append_assoc]
    · rw [run_over _ c hcv (by rw [hat.i]; exact h1) (by rw [hex, hat.i]; simp; omega), hex]
      refine ⟨_, _, ⟨size + 1, _, c.desc⟩, rfl, ?_, hat.desc, rfl⟩
      simp only [hat.i, hat.vals]
      rw [List.take_append_of_le_length (by simp), List.take_of_length_le (by simp)]
      rw [List.take_append (l₁ := e), List.take_of_length_le (l := e) h1, List.flatMap_cons,
        List.take_append_of_le_length (by simp; omega)]

theorem intText_newline (n : Int) : '\n' ∉ intText n := by
  have h : ∀ m, '\n' ∉ digitsOf m := by
    intro m hm
    rw [digitsOf_decimal] at hm
    have := decimal_digits m _ hm
    simp [isDigit] at this
  unfold intText
  split
  · simp only [List.mem_cons, not_or]; exact ⟨by decide, h _⟩
  · exact h _

theorem plainBlock_ok {V} {show_ : Ty → V → List Char} {p : Par V} (h : Savable show_ p) (withVals : Bool) :
    Block.Ok { plainBlock show_ p with sec := if withVals then (plainBlock show_ p).sec else [] } := by
  have hdec : ∀ n : Nat, '\n' ∉ decimal n := by
    intro m hm
    have := decimal_digits m _ hm
    simp [isDigit] at this
  have hsec : ∀ l ∈ (plainBlock show_ p).sec, l.Ok := by
    intro l hl
    simp only [plainBlock, List.mem_map] at hl
    obtain ⟨v, hv, rfl⟩ := hl
    obtain ⟨g1, g2, g3, g4, g5, g6, g7⟩ := h.vals v hv
    refine ⟨⟨?_, ?_⟩, ?_, ?_, ?_⟩
    · simpa [SecLine.render, VLine.render, Item.render] using g3
    · simp [SecLine.render, VLine.render, Item.render]; omega
    · intro i hi
      simp only [VLine.items, List.map_nil, List.mem_singleton] at hi
      subst hi
      exact ⟨g1, g2, g3, fun _ => g4⟩
    · simpa [VLine.render, Item.render] using g6
    · simpa [VLine.render, Item.render] using g5
  refine ⟨by simp [plainBlock, Fits], ?_, h.name, ?_, ?_, ?_, ?_, ⟨h.dims.1, fun d hd => (h.dims.2 d hd).2⟩, ?_, ?_, ?_⟩
  · intro l hl
    simp only [Block.body, plainBlock, List.mem_append, List.mem_cons, List.not_mem_nil, or_false] at hl
    rcases hl with (((rfl | rfl | hl) | (rfl | rfl)) | hl)
    · refine ⟨?_, ?_⟩
      · simp only [List.mem_append, List.mem_cons, not_or]
        refine ⟨h.name.2.2.1, ⟨by decide, intText_newline _⟩, ?_⟩
        cases hf : p.format with
        | none => simp
        | some f => simp only [List.mem_cons, not_or]; exact ⟨by decide, h.width f hf⟩
      · have := h.line; simpa using this
    · exact ⟨by simp [hdec], by have := h.small.1; simp; omega⟩
    · have := h.dims.2 l hl
      exact ⟨this.1, by omega⟩
    · exact ⟨by simp [hdec], by have := h.small.2; simp; omega⟩
    · cases p.type <;> exact ⟨by simp [hdec], by rw [decimal]; simp [Ty.code]⟩
    · cases withVals with
      | false => simp at hl
      | true =>
        simp only [if_true, List.mem_map] at hl
        obtain ⟨x, hx, rfl⟩ := hl
        exact (hsec x (by simp only [plainBlock, List.mem_map]; exact hx)).1
  · intro c hc
    simp [plainBlock] at hc
    exact hc.symm
  · intro c hc; simp [plainBlock] at hc; subst hc; decide
  · intro c hc; simp [plainBlock] at hc; subst hc; decide
  · intro c hc; simp [plainBlock] at hc; subst hc; decide
  · have := h.size.1; simp only [plainBlock]; omega
  · cases withVals with
    | false => simp
    | true => simpa using hsec
  · intro a s b hab
    exfalso
    have : SecLine.note s ∈ (plainBlock show_ p).sec := by
      cases withVals with
      | false => simp at hab
      | true => simp only [if_true] at hab; rw [hab]; simp
    simp [plainBlock] at this

theorem saveVals_eq {V} {show_ : Ty → V → List Char} {p : Par V} (h : Savable show_ p) :
    saveVals show_ p = unlines (p.vals.map fun v => show_ p.type v ++ [' ']) := by
  have hd : ∀ j, p.desc.getD j none = none := by
    intro j
    by_cases hj : j < p.desc.length
    · rw [List.getD, List.getElem?_eq_getElem hj]; exact h.desc _ (List.getElem_mem hj)
    · simp [List.getD, List.getElem?_eq_none (by omega : p.desc.length ≤ j)]
  unfold saveVals
  simp only [hd, saveDesc, List.append_nil]
  rw [← h.size.2]
  unfold unlines
  rw [List.flatMap_map]
  generalize p.vals = vs
  induction vs with
  | nil => rfl
  | cons v vs ih =>
    rw [List.length_cons, List.range_succ_eq_map, List.flatMap_cons, List.flatMap_map, List.flatMap_cons]
    simp only [List.getElem?_cons_zero, List.getElem?_cons_succ]
    rw [ih]; rfl

theorem unlines_flatMap {α} (f : α → List Char) (l : List α) : l.flatMap (fun x => line (f x)) = unlines (l.map f) := by
  simp [unlines, line, List.flatMap_map]

theorem savePar_eq {V} {show_ : Ty → V → List Char} {p : Par V} (h : Savable show_ p) :
    savePar show_ p = unlines ((Entry.listed { plainBlock show_ p with sec := [] }).lines ++
      p.vals.map fun v => show_ p.type v ++ [' ']) := by
  rw [unlines_append, savePar, saveVals_eq h]
  congr 1
  rw [show p.dims.flatMap line = p.dims.flatMap (fun x => line (id x)) from rfl, unlines_flatMap]
  simp only [Entry.lines, Entry.hd, Entry.body, Block.body, plainBlock, digitsOf_decimal, List.map_nil, List.append_nil,
    List.cons_append]
  simp only [unlines_cons, unlines_append, unlines_nil, line, List.map_id]
  simp
  cases p.format <;> rfl

theorem line_lines : ∀ (s : List Char), ∃ l r, line s = unlines (l :: r)
  | [] => ⟨[], [], rfl⟩
  | c :: s => by
    obtain ⟨l, r, h⟩ := line_lines s
    by_cases hc : c = '\n'
    · refine ⟨[], l :: r, ?_⟩
      rw [unlines_cons, ← h, hc]; rfl
    · refine ⟨c :: l, r, ?_⟩
      rw [unlines_cons] at h ⊢
      rw [List.cons_append, ← h]; rfl

/-- A text that consists of whole lines. -/
def Whole (t : List Char) : Prop := ∃ r, t = unlines r

theorem Whole.append {a b : List Char} (ha : Whole a) (hb : Whole b) : Whole (a ++ b) := by
  obtain ⟨r, rfl⟩ := ha
  obtain ⟨s, rfl⟩ := hb
  exact ⟨r ++ s, (unlines_append r s).symm⟩

theorem whole_line (s : List Char) : Whole (line s) := by
  obtain ⟨l, r, h⟩ := line_lines s
  exact ⟨_, h⟩

theorem whole_flatMap {α} {f : α → List Char} {l : List α} (h : ∀ a ∈ l, Whole (f a)) : Whole (l.flatMap f) := by
  induction l with
  | nil => exact ⟨[], rfl⟩
  | cons a l ih => rw [List.flatMap_cons]; exact (h a (by simp)).append (ih fun b hb => h b (by simp [hb]))

theorem whole_nil : Whole [] := ⟨[], rfl⟩

theorem saved_lines {V} (show_ : Ty → V → List Char) (db : Db V) : ∃ r, db.flatMap (savePar show_) = unlines r := by
  refine whole_flatMap fun p _ => ?_
  unfold savePar saveVals
  refine Whole.append (Whole.append (Whole.append (Whole.append (Whole.append (Whole.append (whole_line _) (whole_line _))
    (whole_line _)) (whole_flatMap fun _ _ => whole_line _)) (whole_line _)) (whole_line _)) (whole_flatMap fun j _ => ?_)
  refine Whole.append ?_ ?_
  · split
    · exact whole_line _
    · exact whole_nil
  · unfold saveDesc
    split
    · exact whole_nil
    · refine Whole.append (whole_flatMap fun _ _ => whole_line _) ?_
      split
      · exact whole_nil
      · exact whole_line _

/-- A saved file: its first parameter has too many values. -/
theorem rp_saved {V} {conv : Ty → List Char → V} (dimVal : List Char → Int) {show_ : Ty → V → List Char}
    {ds : List Dimen} {before : List (List Char)} (hbt : ds.flatMap saveDim = unlines before)
    (hb : ∀ l ∈ before, Fits l ∧ ¬ "** Parameters **".toList <+: l) {p : Par V} (hp : Savable show_ p) (more : Db V)
    {db : Db V} (hs : Stored db) {q : Par V} (hq : find db p.name = some q) (hqd : q.dims = p.dims) (hqs : q.size = p.size)
    (hqt : q.type = p.type) :
    ∃ db', rp conv dimVal db (some (save show_ ds (p :: more))) 0 = .ret (some .many) db' ∧
      look db' p.name = some ((p.vals.flatMap fun v => [conv p.type (show_ p.type v), conv p.type ['\n']]).take p.size) := by
  obtain ⟨r, hr⟩ := saved_lines show_ more
  have hsave : save show_ ds (p :: more) =
      unlines (("Default file generated by model".toList :: "Version: 1.7".toList :: "** Dimensions **".toList :: before) ++
        ("** Parameters **".toList ++ []) :: ((Entry.listed { plainBlock show_ p with sec := [] }).lines ++
      (p.vals.map (fun v => show_ p.type v ++ [' ']) ++ r))) := by
    unfold save
    rw [hbt, List.flatMap_cons, savePar_eq hp, hr]
    unfold dimLabel parLabel
    generalize "Default file generated by model".toList = s1
    generalize "Version: 1.7".toList = s2
    generalize "** Dimensions **".toList = s3
    generalize "** Parameters **".toList = s4
    generalize (Entry.listed { plainBlock show_ p with sec := [] }).lines = s5
    generalize p.vals.map (fun v => show_ p.type v ++ [' ']) = s6
    simp only [unlines_cons, unlines_append, line, List.append_assoc, List.cons_append, List.nil_append, List.append_nil]
  generalize hE : (p.vals.map (fun v => show_ p.type v ++ [' ']) ++ r) = tail at hsave
  have hok := plainBlock_ok hp false
  simp only [Bool.false_eq_true, if_false] at hok
  generalize hB : { plainBlock show_ p with sec := [] } = b at hsave hok
  have hbn : b.name = p.name := by rw [← hB]; rfl
  have hbd : b.dims = p.dims := by rw [← hB]; rfl
  have hbs : b.size = p.size := by rw [← hB]; rfl
  have hbt : b.type = p.type := by rw [← hB]; rfl
  have hbsec : b.sec = [] := by rw [← hB]
  obtain ⟨line, st, h1, h2⟩ := rp_begin conv dimVal db
    (before := "Default file generated by model".toList :: "Version: 1.7".toList :: "** Dimensions **".toList :: before)
    (by
      intro l hl
      simp only [List.mem_cons] at hl
      rcases hl with rfl | rfl | rfl | hl
      · exact ⟨⟨by decide, by decide⟩, by decide⟩
      · exact ⟨⟨by decide, by decide⟩, by decide⟩
      · exact ⟨⟨by decide, by decide⟩, by decide⟩
      · exact hb l hl) (lab := []) ⟨by decide, by decide⟩
    (r := (Entry.listed b).lines ++ tail)
    (by intro l r' hl; simp only [Entry.lines, List.cons_append, List.cons.injEq] at hl; rw [← hl.1]; exact hok.hd) hsave
  have hlen := unlines_length (p.vals.map (fun v => show_ p.type v ++ [' ']) ++ r)
  rw [hE] at hlen
  have htext : (unlines tail).length ≤ (save show_ ds (p :: more)).length := by
    rw [hsave, unlines_append, unlines_cons (_ ++ []), unlines_append]
    simp only [List.length_append, List.length_cons]
    omega
  rcases h1 with ⟨h1, _⟩ | ⟨l, r', h1, rfl, rfl⟩
  · simp [Entry.lines] at h1
  simp only [Entry.lines, List.cons_append, List.cons.injEq] at h1
  obtain ⟨rfl, rfl⟩ := h1
  rw [← hbn] at hq
  have hfor : b.For q := ⟨hqd.trans hbd.symm, hqs.trans hbs.symm, hqt.trans hbt.symm⟩
  have hsk : (skipTo ((save show_ ds (p :: more)).length + 2) ((Entry.listed b).hd ++ ['\n'])
      ⟨unlines (b.body ++ tail), false⟩ : Out V Stream) = .ok ⟨unlines (b.body ++ tail), false⟩ :=
    skipTo_head ((take4_newline _).2 (entry_hd_header (.listed b))) _
  obtain ⟨w, f, hh⟩ := head_listed dimVal hok hq hfor hsk
  rw [hbsec, List.map_nil, List.nil_append] at hh
  have hfd : find (update b.name (fun q => { q with readIn := true, width := w, format := f }) db) b.name =
      some { q with readIn := true, width := w, format := f } := by
    rw [find_update b.name (fun q => { q with readIn := true, width := w, format := f }) (fun _ => rfl)]
    simp [hq]
  obtain ⟨hv, hd⟩ := hs q (find_mem hq).1
  have hvl := hp.size
  obtain ⟨n, hn⟩ : ∃ n, (save show_ ds (p :: more)).length + 2 = n + p.vals.length := by
    rw [← hE] at hlen htext
    simp only [List.length_append, List.length_map] at hlen
    exact ⟨(save show_ ds (p :: more)).length + 2 - p.vals.length, by omega⟩
  obtain ⟨line', st', c', g1, g2, g3, g4⟩ := valLines_saved (conv := conv) q.type hv (p.vals.map (show_ p.type))
    (by intro t ht; simp only [List.mem_map] at ht; obtain ⟨v, h3, rfl⟩ := ht; exact hp.vals v h3)
    [] ⟨0, q.vals, q.desc⟩ ⟨rfl, by simp, hd⟩ (by simp) (by simp; omega) n r
  rw [List.map_map, show ((fun t => t ++ [' ']) ∘ show_ p.type) = fun v => show_ p.type v ++ [' '] from rfl, hE,
    List.length_map, ← hn] at g4
  refine ⟨update b.name (fun q => { q with vals := c'.vals, desc := c'.desc })
    (update b.name (fun q => { q with readIn := true, width := w, format := f }) db), ?_, ?_⟩
  · rw [h2, readLoop]
    simp only [Bool.false_eq_true, if_false, Entry.body]
    rw [hh]
    simp only [Out.bind]
    rw [hfd]
    simp only []
    rw [values]
    simp only []
    rw [g4]
    simp only [Out.bind]
    rw [if_neg (by rw [g1]; omega), if_pos (by rw [g1]; omega), (find_mem hq).2]
  · rw [← hbn, look_update_of (f := fun q => { q with vals := c'.vals, desc := c'.desc }) (fun _ => rfl), if_pos rfl, hfd]
    simp only [Option.map_some, g2, List.nil_append, hqs, hqt, List.flatMap_map]

end Verif.ParFile
