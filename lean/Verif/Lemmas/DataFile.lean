import Verif.Lemmas.DataLine
import Verif.Lemmas.TimeLoop
/-
Helper lemmas for data files: times, headers, whole files.
-/
namespace Verif.DataLine
open Verif.CText Verif.CFile
open Verif.ParFile (Ty)

/-! ### Times -/

theorem extract_words {y m d h mi s : List Char × Dec} {rest : List Char}
    (hi : ∀ w ∈ [y, m, d, h, mi], w.2.Ok ∧ w.2.IsInt ∧ Blank w.1) (hs : s.2.Ok ∧ Blank s.1)
    (hne : ∀ w ∈ [m, d, h, mi, s], w.1 ≠ []) (hr : AfterWord rest) :
    extractTime (wordsText [y, m, d, h, mi, s] ++ rest) =
      if (⟨y.2.int, m.2.int, d.2.int, h.2.int, mi.2.int, truncInt s.2.value⟩ : Stamp).InRange then
        some (⟨y.2.int, m.2.int, d.2.int, h.2.int, mi.2.int, truncInt s.2.value⟩, rest)
      else none := by
  obtain ⟨y1, y2⟩ := y
  obtain ⟨m1, m2⟩ := m
  obtain ⟨d1, d2⟩ := d
  obtain ⟨h1, h2⟩ := h
  obtain ⟨i1, i2⟩ := mi
  obtain ⟨s1, s2⟩ := s
  simp only [List.mem_cons, List.not_mem_nil, or_false, forall_eq_or_imp, forall_eq] at hi hne hs
  obtain ⟨⟨ya, yb, yc⟩, ⟨ma, mb, mc⟩, ⟨da, db, dc⟩, ⟨ha, hb, hc⟩, ⟨ia, ib, ic⟩⟩ := hi
  obtain ⟨sa, sc⟩ := hs
  obtain ⟨mn, dn, hn, inn, sn⟩ := hne
  simp only [wordsText, List.append_assoc, List.append_nil, List.nil_append]
  have e5 := strtod_word sc sa hr
  have e4 := strtol_word ic ia ib (after_not_digit (blank_after sc sn (s2.text ++ rest)))
  have e3 := strtol_word hc ha hb (after_not_digit (blank_after ic inn (i2.text ++ (s1 ++ (s2.text ++ rest)))))
  have e2 := strtol_word dc da db (after_not_digit (blank_after hc hn (h2.text ++ (i1 ++ (i2.text ++ (s1 ++ (s2.text ++ rest)))))))
  have e1 := strtol_word mc ma mb (after_not_digit (blank_after dc dn
    (d2.text ++ (h1 ++ (h2.text ++ (i1 ++ (i2.text ++ (s1 ++ (s2.text ++ rest)))))))))
  have e0 := strtol_word yc ya yb (after_not_digit (blank_after mc mn
    (m2.text ++ (d1 ++ (d2.text ++ (h1 ++ (h2.text ++ (i1 ++ (i2.text ++ (s1 ++ (s2.text ++ rest)))))))))))
  simp only [List.append_assoc] at e0 e1 e2 e3 e4 e5
  have key : ∀ t : Stamp, t.InRange ↔ (1800 ≤ t.year ∧ t.year ≤ 2100 ∧ 1 ≤ t.month ∧ t.month ≤ 12 ∧ 1 ≤ t.day ∧ t.day ≤ 31 ∧
      0 ≤ t.hour ∧ t.hour ≤ 24 ∧ 0 ≤ t.min ∧ t.min ≤ 59 ∧ 0 ≤ t.sec) := fun t => Iff.rfl
  unfold extractTime
  simp only [e0, e1, e2, e3, e4, e5]
  split
  · rw [if_neg]; rw [key]; dsimp only; omega
  split
  · rw [if_neg]; rw [key]; dsimp only; omega
  split
  · rw [if_neg]; rw [key]; dsimp only; omega
  split
  · rw [if_neg]; rw [key]; dsimp only; omega
  split
  · rw [if_neg]; rw [key]; dsimp only; omega
  split
  · rw [if_neg]; rw [key]; dsimp only; omega
  · rw [if_pos]; rw [key]; dsimp only; omega

theorem truncInt_floor {x : Rat} (h0 : 0 ≤ x) (h1 : x < 2 ^ 31) : truncInt x = x.floor := by
  have h1 : x < 2147483648 := by norm_num at h1; exact h1
  rw [truncInt, if_pos h1, Rat.floor_def]
  rw [Int.tdiv_eq_ediv_of_nonneg (Rat.num_nonneg.2 h0)]

theorem inRange_julTime {t : Stamp} (h : t.InRange) : ∃ time, julTime t = some time := by
  unfold julTime
  have : Calendar.julday ⟨t.year, t.month, t.day⟩ ≠ none := by
    unfold Calendar.julday
    rw [if_neg (by have := h.1; simp only; omega)]
    dsimp only
    split <;> (split <;> simp)
  cases hj : Calendar.julday ⟨t.year, t.month, t.day⟩ with
  | none => exact absurd hj this
  | some n => exact ⟨_, rfl⟩

theorem valid_julTime {t : Stamp} (h : t.Valid) :
    julTime t = some ⟨Calendar.jd ⟨t.year, t.month, t.day⟩, Calendar.jd ⟨t.year, t.month, t.day⟩ +
      (t.hour : Rat) / 24 + (t.min : Rat) / 1440 + (t.sec : Rat) / 86400⟩ := by
  rw [julTime, Calendar.julday_jd h.1]

theorem rat_lt {a b : Rat} (h : 86400 * a < 86400 * b) : a < b := by linarith

/-- Times in whole seconds. -/
theorem jt_lt {j k h i m n s t : Int} :
    ((j : Rat) + (h : Rat) / 24 + (m : Rat) / 1440 + (s : Rat) / 86400 < k + (i : Rat) / 24 + (n : Rat) / 1440 + (t : Rat) / 86400) ↔
      86400 * j + 3600 * h + 60 * m + s < 86400 * k + 3600 * i + 60 * n + t := by
  constructor
  · intro hh
    have : ((86400 * j + 3600 * h + 60 * m + s : Int) : Rat) < ((86400 * k + 3600 * i + 60 * n + t : Int) : Rat) := by
      push_cast; linarith
    exact_mod_cast this
  · intro hh
    have : ((86400 * j + 3600 * h + 60 * m + s : Int) : Rat) < ((86400 * k + 3600 * i + 60 * n + t : Int) : Rat) := by
      exact_mod_cast hh
    push_cast at this; linarith

theorem julTime_lt {a b : Stamp} (ha : a.Valid) (hb : b.Valid) {ta tb : TimeLoop.Time} (hta : julTime a = some ta)
    (htb : julTime b = some tb) : ta.jt < tb.jt ↔ a.Before b := by
  rw [valid_julTime ha] at hta
  rw [valid_julTime hb] at htb
  simp only [Option.some.injEq] at hta htb
  subst hta; subst htb
  simp only
  rw [jt_lt]
  obtain ⟨va, a1, a2, a3, a4, a5, a6⟩ := ha
  obtain ⟨vb, b1, b2, b3, b4, b5, b6⟩ := hb
  unfold Stamp.Before
  rcases Calendar.Before.trichotomy ⟨a.year, a.month, a.day⟩ ⟨b.year, b.month, b.day⟩ with h | h | h
  · have := Calendar.jd_mono va vb h
    constructor
    · intro _; exact .inl h
    · intro _; omega
  · have hn : ¬ Calendar.Before ⟨a.year, a.month, a.day⟩ ⟨b.year, b.month, b.day⟩ := by
      rw [h]; unfold Calendar.Before; omega
    rw [h]
    simp only [Calendar.Date.mk.injEq] at h
    obtain ⟨e1, e2, e3⟩ := h
    constructor
    · intro hh
      refine .inr ⟨e1, e2, e3, ?_⟩
      omega
    · rintro (hh | ⟨-, -, -, hh⟩)
      · exact absurd hh (by unfold Calendar.Before; omega)
      · omega
  · have := Calendar.jd_mono vb va h
    have hn : ¬ Calendar.Before ⟨a.year, a.month, a.day⟩ ⟨b.year, b.month, b.day⟩ := by
      unfold Calendar.Before at h ⊢; simp only at h ⊢; omega
    constructor
    · intro _; omega
    · rintro (hh | ⟨e1, e2, e3, -⟩)
      · exact absurd hh hn
      · unfold Calendar.Before at h; simp only at h; omega

/-! ### Texts without newline -/

theorem digits_no_nl {s : List Char} (h : ∀ c ∈ s, c ∈ digits) : '\n' ∉ s := by
  intro hm; exact absurd (h _ hm) (by decide)

theorem sign_no_nl {s : List Char} (h : IsSign s) : '\n' ∉ s := by
  rcases h with rfl | rfl | rfl <;> decide

theorem blank_no_nl {s : List Char} (h : Blank s) : '\n' ∉ s := by
  intro hm; exact absurd (h _ hm) (by decide)

theorem dec_no_nl {d : Dec} (h : d.Ok) : '\n' ∉ d.text := by
  obtain ⟨h1, h2, h3, -, h5⟩ := h
  unfold Dec.text
  simp only [List.mem_append, not_or]
  refine ⟨⟨⟨sign_no_nl h1, digits_no_nl h2⟩, ?_⟩, ?_⟩
  · cases hx : d.fp with
    | none => simp
    | some f => rw [hx] at h3; simp only [List.mem_cons, not_or]; exact ⟨by decide, digits_no_nl h3⟩
  · cases hx : d.ex with
    | none => simp
    | some x =>
      obtain ⟨c, s, e⟩ := x
      rw [hx] at h5
      obtain ⟨h5, h6, -, h8⟩ := h5
      simp only [List.cons_append, List.mem_cons, List.mem_append, not_or]
      exact ⟨by rcases h5 with rfl | rfl <;> decide, sign_no_nl h6, digits_no_nl h8⟩

theorem words_no_nl {ws : List (List Char × Dec)} (h : ∀ w ∈ ws, w.2.Ok ∧ Blank w.1) : '\n' ∉ wordsText ws := by
  induction ws with
  | nil => simp [wordsText]
  | cons w ws ih =>
    obtain ⟨s, d⟩ := w
    obtain ⟨h1, h2⟩ := h (s, d) (by simp)
    simp only [wordsText, List.mem_append, not_or]
    exact ⟨⟨blank_no_nl h2, dec_no_nl h1⟩, ih fun w hw => h w (List.mem_cons_of_mem _ hw)⟩

theorem fit_ok {V} {cv : Conv V} {tys : List Ty} {ds : List Dec} (h : Fit cv tys ds) : ∀ d ∈ ds, d.Ok := by
  intro d hd
  obtain ⟨i, hi, rfl⟩ := List.getElem_of_mem hd
  have hl := h.1
  have : (tys[i], ds[i]) ∈ tys.zip ds := by
    rw [List.mem_iff_getElem]
    exact ⟨i, by simp; omega, by simp⟩
  exact (h.2 _ this).1

theorem rec_no_nl {V} {cv : Conv V} {cols : List Col} {r : Rec} (h : r.Ok cv cols) : '\n' ∉ r.text := by
  obtain ⟨h1, -, -, -, h5, h6, h7, -⟩ := h
  unfold Rec.text
  simp only [List.mem_append, not_or]
  refine ⟨⟨words_no_nl fun w hw => ⟨(h1 w hw).1, (h1 w hw).2.2⟩, words_no_nl fun w hw => ⟨?_, (h5 w hw).2⟩⟩, blank_no_nl h7⟩
  exact fit_ok h6 _ (List.mem_map_of_mem hw)

theorem tail_after {s : List Char} (h : Blank s) : AfterWord (s ++ ['\n']) := by
  by_cases h0 : s = []
  · subst h0; exact .inr ⟨'\n', [], rfl, by simp⟩
  · exact blank_after h h0 _

/-- The time and the rest of a well-formed record. -/
theorem extract_rec {V} {cv : Conv V} {cols : List Col} {r : Rec} (h : r.Ok cv cols) :
    extractTime (r.text ++ ['\n']) = some (r.stamp, wordsText r.vals ++ (r.tail ++ ['\n'])) := by
  obtain ⟨h1, h2, h3, h4, h5, h6, h7, -⟩ := h
  have hs := h1 r.sec (by simp [Rec.head])
  have hv : truncInt r.sec.2.value = r.sec.2.int := by
    rw [int_value hs.2.1]; exact truncInt_int _ h4
  have := extract_words (y := r.year) (m := r.month) (d := r.day) (h := r.hour) (mi := r.min) (s := r.sec)
    (rest := wordsText r.vals ++ (r.tail ++ ['\n']))
    (fun w hw => h1 w (by simp only [Rec.head, List.mem_cons] at hw ⊢; tauto)) ⟨hs.1, hs.2.2⟩
    (fun w hw => h2 w (by simpa [Rec.head] using hw)) (words_after h5 (tail_after h7))
  rw [hv] at this
  have hst : (⟨r.year.2.int, r.month.2.int, r.day.2.int, r.hour.2.int, r.min.2.int, r.sec.2.int⟩ : Stamp) = r.stamp := rfl
  rw [hst, if_pos h3] at this
  rw [← this]
  simp [Rec.text, Rec.head]

theorem rec_head {V} {cv : Conv V} {cols : List Col} {r : Rec} (h : r.Ok cv cols) :
    (r.text ++ ['\n']).head? ≠ some '\n' := by
  have hnl := rec_no_nl h
  have hne : r.text ≠ [] := by
    have := (h.1 r.year (by simp [Rec.head]))
    have h4 := this.1.2.2.2.1
    intro h0
    apply h4
    have : r.year.2.text = [] := by
      simp only [Rec.text, Rec.head, wordsText, List.append_eq_nil_iff] at h0
      exact h0.1.1.1.2
    simp only [Dec.text, List.append_eq_nil_iff] at this
    rw [this.1.1.2]
    have h9 := this.1.2
    cases hx : r.year.2.fp with
    | none => rfl
    | some f => rw [hx] at h9; simp at h9
  cases hx : r.text with
  | nil => exact absurd hx hne
  | cons c s =>
    rw [hx] at hnl
    simp only [List.cons_append, List.head?_cons, ne_eq, Option.some.injEq]
    intro e; subst e; simp at hnl

theorem itemOf_rec {V} {cv : Conv V} {cols : List Col} {r : Rec} (h : r.Ok cv cols) {time : TimeLoop.Time}
    (ht : julTime r.stamp = some time) :
    itemOf (r.text ++ ['\n']) = .record time (wordsText r.vals ++ (r.tail ++ ['\n'])) := by
  rw [itemOf, if_neg (rec_head h), extract_rec h]
  simp only [ht]

theorem lines_texts : ∀ (ls : List (List Char)) (n : Nat) (e : Bool),
    (∀ l ∈ ls, '\n' ∉ l ∧ l.length + 2 ≤ 2048) → ls.length < n →
    lines n ⟨ls.flatMap fun l => l ++ ['\n'], e⟩ = ls.map (· ++ ['\n'])
  | [], n + 1, e, _, _ => by simp [lines, fgets]
  | l :: ls, n + 1, e, h, hn => by
    obtain ⟨h1, h2⟩ := h l (by simp)
    have := fgets_line h1 (num := MAXDATALNLEN) h2 (ls.flatMap fun l => l ++ ['\n']) e
    have ih := lines_texts ls n e (fun l hl => h l (List.mem_cons_of_mem _ hl)) (by simpa using hn)
    simp only [List.flatMap_cons, List.append_assoc, List.singleton_append, lines, this, ih, List.map_cons]

/-! ### Header -/

theorem strtok_word_sep {p : Char → Bool} {w s : List Char} (h0 : w ≠ []) (hw : ∀ c ∈ w, p c = false) (hs0 : s ≠ [])
    (hs : ∀ c ∈ s, p c = true) (t : List Char) : strtok p (w ++ (s ++ t)) = w :: strtok p t := by
  cases s with
  | nil => exact absurd rfl hs0
  | cons c s =>
    have : strtok p (w ++ (c :: s ++ t)) = w :: strtok p (s ++ t) := by
      unfold strtok
      rw [List.cons_append, splitBy_word_sep hw (hs c (by simp)), List.filter_cons]
      simp [h0]
    rw [this, strtok_seps fun d hd => hs d (List.mem_cons_of_mem _ hd)]

/-- A word followed by a character that is no digit: the first token begins with the word. -/
theorem strtok_word_tail {p : Char → Bool} {w : List Char} (h0 : w ≠ []) (hw : ∀ c ∈ w, p c = false)
    {u : List Char} (hu : ∀ c, u.head? = some c → isDigit c = false) :
    ∃ x more, strtok p (w ++ u) = (w ++ x) :: more ∧ ∀ c, x.head? = some c → isDigit c = false := by
  obtain ⟨t, ts, h1, h2⟩ := splitBy_append hw u
  refine ⟨t, ts.filter fun t => !t.isEmpty, ?_, ?_⟩
  · unfold strtok
    rw [h2, List.filter_cons]
    simp [h0]
  · intro c hc
    cases u with
    | nil =>
      simp only [splitBy, List.cons.injEq] at h1
      rw [← h1.1] at hc; simp at hc
    | cons a u =>
      unfold splitBy at h1
      split at h1
      · simp only [List.cons.injEq] at h1
        rw [← h1.1] at hc; simp at hc
      · cases hsp : splitBy p u with
        | nil => exact absurd hsp (splitBy_ne_nil p u)
        | cons b bs =>
          rw [hsp] at h1
          simp only [List.cons.injEq] at h1
          rw [← h1.1] at hc
          simp only [List.head?_cons, Option.some.injEq] at hc
          subst hc
          exact hu a rfl

/-- A prefix without blanks of a line lies inside the first word. -/
theorem take_key {pre key sep x p : List Char} {n : Nat} (hpre : ∀ c ∈ pre, isBlankTab c = true) (hsep0 : sep ≠ [])
    (hsep : ∀ c ∈ sep, isBlankTab c = true) (hp : ∀ c ∈ p, isBlankTab c = false) (hn : p.length = n) (hn0 : 0 < n)
    (h : (pre ++ (key ++ (sep ++ x))).take n = p) : key.take n = p := by
  cases pre with
  | cons c pre =>
    cases n with
    | zero => omega
    | succ n =>
      simp only [List.cons_append, List.take_succ_cons] at h
      have h1 := hpre c (by simp)
      have h2 := hp c (by rw [← h]; simp)
      rw [h1] at h2; exact absurd h2 (by simp)
  | nil =>
    simp only [List.nil_append] at h
    by_cases hk : n ≤ key.length
    · rw [List.take_append_of_le_length hk] at h; exact h
    · exfalso
      cases sep with
      | nil => exact hsep0 rfl
      | cons c sep =>
        have hm : c ∈ (key ++ (c :: sep ++ x)).take n := by
          rw [List.take_append]
          obtain ⟨k, hk'⟩ : ∃ k, n - key.length = k + 1 := ⟨n - key.length - 1, by omega⟩
          rw [hk']; simp
        rw [h] at hm
        have h1 := hsep c (by simp)
        rw [hp c hm] at h1; exact absurd h1 (by simp)

theorem blankTab_iff {c : Char} : isBlankTab c = true ↔ (c = ' ' ∨ c = '\t') := by simp [isBlankTab]

theorem find_unique {V} {vars : List (Var V)} (hn : (vars.map (·.key)).Nodup) {key : List Char} (h : ∃ v ∈ vars, v.key = key) :
    ∃ v, vars.find? (fun v => v.key = key) = some v ∧ v.key = key ∧ (vars.filter fun v => v.key = key) = [v] := by
  induction vars with
  | nil => simp at h
  | cons a vars ih =>
    simp only [List.map_cons, List.nodup_cons] at hn
    by_cases ha : a.key = key
    · refine ⟨a, by simp [ha], ha, ?_⟩
      rw [List.filter_cons_of_pos (by simpa using ha)]
      congr 1
      rw [List.filter_eq_nil_iff]
      intro b hb
      simp only [decide_eq_true_eq]
      intro e
      exact hn.1 (by rw [ha, ← e]; exact List.mem_map_of_mem hb)
    · obtain ⟨v, hv, e⟩ := h
      rcases List.mem_cons.1 hv with rfl | hv
      · exact absurd e ha
      · obtain ⟨v, h1, h2, h3⟩ := ih hn.2 ⟨v, hv, e⟩
        exact ⟨v, by simp [ha, h1], h2, by rw [List.filter_cons_of_neg (by simpa using ha)]; exact h3⟩

theorem declOf_column {V} {vars : List (Var V)} (hn : (vars.map (·.key)).Nodup) {pre key sep post : List Char} {n : Nat}
    (h : (HLine.column pre key sep n post).Ok vars) :
    ∃ v, (vars.filter fun v => v.key = key) = [v] ∧
      declOf vars ((HLine.column pre key sep n post).text ++ ['\n']) = .col ⟨v.key, v.type, n⟩ ∧
      isEnd ((HLine.column pre key sep n post).text ++ ['\n']) = false := by
  obtain ⟨hnl, hlen, hpre, hex, hk0, hk, hk2, hk4, hs0, hs, hpost⟩ := h
  obtain ⟨v, hf, hvk, hfil⟩ := find_unique hn hex
  have hpre' : ∀ c ∈ pre, isBlankTab c = true := fun c hc => blankTab_iff.2 (hpre c hc)
  have hs' : ∀ c ∈ sep, isBlankTab c = true := fun c hc => blankTab_iff.2 (hs c hc)
  have hk' : ∀ c ∈ key, isBlankTab c = false := by
    intro c hc
    have := hk c hc
    cases hb : isBlankTab c with
    | false => rfl
    | true => rcases blankTab_iff.1 hb with h | h
              · exact absurd h this.1
              · exact absurd h this.2
  have htext : (HLine.column pre key sep n post).text ++ ['\n'] = pre ++ (key ++ (sep ++ (decimal n ++ (post ++ ['\n'])))) := by
    simp [HLine.text]
  refine ⟨v, hfil, ?_, ?_⟩
  · rw [htext, declOf]
    have c1 : ¬ (pre ++ (key ++ (sep ++ (decimal n ++ (post ++ ['\n']))))).take 2 = ['/', '/'] := fun h =>
      hk2 (take_key hpre' hs0 hs' (by decide) rfl (by omega) h)
    have c2 : ¬ (pre ++ (key ++ (sep ++ (decimal n ++ (post ++ ['\n']))))).length ≤ 1 := by
      have h1 : 0 < key.length := List.length_pos_iff.2 hk0
      have h2 : 0 < sep.length := List.length_pos_iff.2 hs0
      simp only [List.length_append]; omega
    rw [if_neg c1, if_neg c2, strtok_seps hpre', strtok_word_sep hk0 hk' hs0 hs']
    have hu : ∀ c, (post ++ ['\n']).head? = some c → isDigit c = false := by
      rcases hpost with rfl | ⟨c, r, rfl, hc⟩
      · intro c hc; simp at hc; subst hc; decide
      · intro d hd
        simp at hd; subst hd
        rcases hc with rfl | rfl | rfl <;> decide
    obtain ⟨x, more, h1, h2⟩ := strtok_word_tail (p := isBlankTab) (decimal_ne_nil n) (fun c hc => by
      have := decimal_digits n c hc
      cases hb : isBlankTab c with
      | false => rfl
      | true => rcases blankTab_iff.1 hb with rfl | rfl <;> exact absurd this (by decide)) hu
    rw [h1]
    simp only [hf, strtol_decimal n h2]
    rw [if_neg (by omega)]
    simp
  · unfold isEnd
    rw [htext]
    simp only [decide_eq_false_iff_not]
    intro h
    exact hk4 (take_key hpre' hs0 hs' (by decide) rfl (by omega) h)

/-- The text of header lines. -/
def headText (hs : List HLine) : List Char := hs.flatMap fun h => h.text ++ ['\n']

theorem headerLoop_lines {V} {vars : List (Var V)} (hn : (vars.map (·.key)).Nodup) {mark rest : List Char}
    (hm : '\n' ∉ mark) (hml : mark.length + 6 ≤ 2048) : ∀ (hs : List HLine) (n : Nat), (∀ h ∈ hs, h.Ok vars) → hs.length < n →
    headerLoop vars n ⟨headText hs ++ (('#' :: '#' :: '#' :: '#' :: mark) ++ '\n' :: rest), false⟩ =
      (columns vars hs, some ⟨rest, false⟩)
  | [], n + 1, _, _ => by
    have := fgets_line (w := '#' :: '#' :: '#' :: '#' :: mark) (by simpa using hm) (num := MAXDATALNLEN)
      (by simp [MAXDATALNLEN]; omega) rest false
    simp only [headText, List.flatMap_nil, List.nil_append, headerLoop, this, columns]
    rw [if_pos (by simp [isEnd])]
  | h :: hs, n + 1, hok, hlen => by
    have hh := hok h (by simp)
    have ih := headerLoop_lines hn (rest := rest) hm hml hs n (fun h hh => hok h (List.mem_cons_of_mem _ hh)) (by simpa using hlen)
    have hf := fgets_line hh.1 (num := MAXDATALNLEN) hh.2.1
      (headText hs ++ (('#' :: '#' :: '#' :: '#' :: mark) ++ '\n' :: rest)) false
    have ht : headText (h :: hs) ++ (('#' :: '#' :: '#' :: '#' :: mark) ++ '\n' :: rest) =
        h.text ++ '\n' :: (headText hs ++ (('#' :: '#' :: '#' :: '#' :: mark) ++ '\n' :: rest)) := by
      simp [headText]
    rw [ht, headerLoop, hf]
    simp only
    cases h with
    | comment t =>
      have he : isEnd ((HLine.comment t).text ++ ['\n']) = false := by
        unfold isEnd HLine.text; simp
      rw [if_neg (by simp [he])]
      have hd : declOf vars ((HLine.comment t).text ++ ['\n']) = .skip := by
        simp [declOf, HLine.text]
      rw [hd]
      simp only [ih, columns]
    | blank =>
      have he : isEnd (HLine.blank.text ++ ['\n']) = false := by decide
      rw [if_neg (by simp [he])]
      have hd : declOf vars (HLine.blank.text ++ ['\n']) = .skip := by simp [declOf, HLine.text]
      rw [hd]
      simp only [ih, columns]
    | column pre key sep k post =>
      obtain ⟨v, h1, h2, h3⟩ := declOf_column hn hh
      rw [if_neg (by simp [h3]), h2]
      simp only [ih, columns, h1, List.map_cons, List.map_nil, List.singleton_append]

theorem toData_lines {mark rest : List Char} (hm : '\n' ∉ mark) (hml : mark.length + 6 ≤ 2048) :
    ∀ (ls : List (List Char)) (n : Nat), (∀ l ∈ ls, '\n' ∉ l ∧ l.length + 2 ≤ 2048 ∧ isEnd (l ++ ['\n']) = false) → ls.length < n →
    toData n ⟨(ls.flatMap fun l => l ++ ['\n']) ++ (('#' :: '#' :: '#' :: '#' :: mark) ++ '\n' :: rest), false⟩ =
      some ⟨rest, false⟩
  | [], n + 1, _, _ => by
    have := fgets_line (w := '#' :: '#' :: '#' :: '#' :: mark) (by simpa using hm) (num := MAXDATALNLEN)
      (by simp [MAXDATALNLEN]; omega) rest false
    simp only [List.flatMap_nil, List.nil_append, toData, this]
    rw [if_pos (by simp [isEnd])]
  | l :: ls, n + 1, hok, hlen => by
    obtain ⟨h1, h2, h3⟩ := hok l (by simp)
    have ih := toData_lines (rest := rest) hm hml ls n (fun h hh => hok h (List.mem_cons_of_mem _ hh)) (by simpa using hlen)
    have hf := fgets_line h1 (num := MAXDATALNLEN) h2
      ((ls.flatMap fun l => l ++ ['\n']) ++ (('#' :: '#' :: '#' :: '#' :: mark) ++ '\n' :: rest)) false
    have ht : ((l :: ls).flatMap fun l => l ++ ['\n']) ++ (('#' :: '#' :: '#' :: '#' :: mark) ++ '\n' :: rest) =
        l ++ '\n' :: ((ls.flatMap fun l => l ++ ['\n']) ++ (('#' :: '#' :: '#' :: '#' :: mark) ++ '\n' :: rest)) := by simp
    rw [ht, toData, hf]
    simp only [h3, ih]
    rfl

/-! ### Whole files -/

theorem length_flatMap_lines (ls : List (List Char)) : ls.length ≤ (ls.flatMap fun l => l ++ ['\n']).length := by
  induction ls with
  | nil => simp
  | cons l ls ih => simp only [List.flatMap_cons, List.length_append, List.length_cons, List.length_nil]; omega

theorem fileText_eq (info : List Char) (hs : List HLine) (mark : List Char) (rs : List Rec) :
    fileText info hs mark rs =
      ((info :: hs.map HLine.text).flatMap fun l => l ++ ['\n']) ++ (('#' :: '#' :: '#' :: '#' :: mark) ++
        '\n' :: ((rs.map Rec.text).flatMap fun l => l ++ ['\n'])) := by
  simp [fileText, List.flatMap_map]

theorem hline_end {V} {vars : List (Var V)} (hn : (vars.map (·.key)).Nodup) {h : HLine} (hh : h.Ok vars) :
    isEnd (h.text ++ ['\n']) = false := by
  cases h with
  | comment t => unfold isEnd HLine.text; simp
  | blank => decide
  | column pre key sep k post => exact (declOf_column hn hh).choose_spec.2.2

theorem readDatainfo_file {V} {vars : List (Var V)} (hn : (vars.map (·.key)).Nodup) {info mark : List Char} {hs : List HLine}
    {rs : List Rec} (hi : '\n' ∉ info) (hil : info.length + 2 ≤ 80) (hm : '\n' ∉ mark) (hml : mark.length + 6 ≤ 2048)
    (hh : ∀ h ∈ hs, h.Ok vars) (hr : rs ≠ []) :
    readDatainfo vars (fileText info hs mark rs) = (columns vars hs, true) := by
  have hf := fgets_line hi (num := MAXINFOLEN) hil (headText hs ++ (('#' :: '#' :: '#' :: '#' :: mark) ++
        '\n' :: ((rs.map Rec.text).flatMap fun l => l ++ ['\n']))) false
  have ht : fileText info hs mark rs = info ++ '\n' :: (headText hs ++ (('#' :: '#' :: '#' :: '#' :: mark) ++
        '\n' :: ((rs.map Rec.text).flatMap fun l => l ++ ['\n']))) := by
    simp [fileText, headText, List.flatMap_map]
  have hlen : hs.length < (fileText info hs mark rs).length + 1 := by
    have := length_flatMap_lines (hs.map HLine.text)
    rw [fileText_eq]
    simp only [List.flatMap_cons, List.length_append, List.length_map] at this ⊢
    omega
  have hl := headerLoop_lines hn (rest := (rs.map Rec.text).flatMap fun l => l ++ ['\n']) hm hml hs _ hh hlen
  unfold readDatainfo openText
  rw [ht] at hl ⊢
  rw [hf]
  simp only [hl]
  cases rs with
  | nil => exact absurd rfl hr
  | cons r rs => simp

theorem openData_file {V} {cv : Conv V} {cols : List Col} {vars : List (Var V)} (hn : (vars.map (·.key)).Nodup)
    {info mark : List Char} {hs : List HLine} {r : Rec} {rs : List Rec} {t : TimeLoop.Time} {ts : List TimeLoop.Time}
    (hi : '\n' ∉ info) (hil : info.length + 2 ≤ 2048) (hie : info.take 4 ≠ ['#', '#', '#', '#']) (hm : '\n' ∉ mark)
    (hml : mark.length + 6 ≤ 2048) (hh : ∀ h ∈ hs, h.Ok vars) (hr : ∀ x ∈ r :: rs, x.Ok cv cols)
    (ht : julTime r.stamp = some t) (hts : rs.map (fun x => julTime x.stamp) = ts.map some) :
    openData (fileText info hs mark (r :: rs)) = .ok (TimeLoop.openFile (t, wordsText r.vals ++ (r.tail ++ ['\n']))
      ((ts.zip rs).map fun x => .record x.1 (wordsText x.2.vals ++ (x.2.tail ++ ['\n'])))) := by
  have hinfo : isEnd (info ++ ['\n']) = false := by
    unfold isEnd
    simp only [decide_eq_false_iff_not]
    intro h
    by_cases hl : 4 ≤ info.length
    · rw [List.take_append_of_le_length hl] at h; exact hie h
    · have hmem : '\n' ∈ (info ++ ['\n']).take 4 := by
        rw [List.take_append]
        obtain ⟨k, hk⟩ : ∃ k, 4 - info.length = k + 1 := ⟨4 - info.length - 1, by omega⟩
        rw [hk]; simp
      rw [h] at hmem; exact absurd hmem (by decide)
  have hdat := toData_lines (mark := mark) (rest := ((r :: rs).map Rec.text).flatMap fun l => l ++ ['\n']) hm hml
    (info :: hs.map HLine.text) ((fileText info hs mark (r :: rs)).length + 1) (by
      intro l hl
      rcases List.mem_cons.1 hl with rfl | hl
      · exact ⟨hi, hil, hinfo⟩
      · obtain ⟨h, hm', rfl⟩ := List.mem_map.1 hl
        have := hh h hm'
        exact ⟨this.1, this.2.1, hline_end hn this⟩) (by
      have := length_flatMap_lines (info :: hs.map HLine.text)
      rw [fileText_eq]
      simp only [List.length_append, List.length_cons, List.length_map] at this ⊢
      omega)
  have hlines := lines_texts ((r :: rs).map Rec.text) ((fileText info hs mark (r :: rs)).length + 1) false (by
      intro l hl
      obtain ⟨x, hx, rfl⟩ := List.mem_map.1 hl
      exact ⟨rec_no_nl (hr x hx), (hr x hx).2.2.2.2.2.2.2⟩) (by
      have := length_flatMap_lines ((r :: rs).map Rec.text)
      rw [fileText_eq]
      simp only [List.length_append, List.length_cons, List.length_map] at this ⊢
      omega)
  have hfirst : ∃ l st, fgets MAXDATALNLEN (openText (fileText info hs mark (r :: rs))) = some (l, st) := by
    have := fgets_line hi (num := MAXDATALNLEN) hil (((hs.map HLine.text).flatMap fun l => l ++ ['\n']) ++
      (('#' :: '#' :: '#' :: '#' :: mark) ++ '\n' :: (((r :: rs).map Rec.text).flatMap fun l => l ++ ['\n']))) false
    have hh' : openText (fileText info hs mark (r :: rs)) = ⟨info ++ '\n' :: (((hs.map HLine.text).flatMap fun l => l ++ ['\n']) ++
      (('#' :: '#' :: '#' :: '#' :: mark) ++ '\n' :: (((r :: rs).map Rec.text).flatMap fun l => l ++ ['\n']))), false⟩ := by
      rw [fileText_eq]; simp [openText]
    rw [hh']
    exact ⟨_, _, this⟩
  obtain ⟨l0, st0, hfirst⟩ := hfirst
  rw [← fileText_eq] at hdat
  unfold openData
  rw [hfirst]
  have ho : openText (fileText info hs mark (r :: rs)) = ⟨fileText info hs mark (r :: rs), false⟩ := rfl
  simp only [ho, hdat]
  rw [hlines]
  simp only [List.map_cons, extract_rec (hr r (by simp)), ht]
  congr 2
  rw [List.map_map, List.map_map]
  clear hlines hdat hfirst ho hh ht
  induction rs generalizing ts with
  | nil => cases ts <;> simp at hts ⊢
  | cons x rs ih =>
    cases ts with
    | nil => simp at hts
    | cons u ts =>
      simp only [List.map_cons, List.cons.injEq] at hts
      have := itemOf_rec (hr x (by simp)) hts.1
      simp only [List.map_cons, List.zip_cons_cons, Function.comp_apply, this, List.cons.injEq, true_and]
      exact ih (fun y hy => hr y (by
        rcases List.mem_cons.1 hy with rfl | hy
        · simp
        · simp [hy])) hts.2

/-! ### Runs -/

theorem julTime_time {t : Stamp} (h : t.Valid) : julTime t = some t.time := by
  rw [valid_julTime h, Stamp.time, Calendar.julday_jd h.1]
  simp only [Option.getD_some, Option.some.injEq, TimeLoop.Time.mk.injEq, true_and]
  push_cast; ring

theorem before_tick {a b : Stamp} (ha : a.Valid) (hb : b.Valid) (h : a.Before b) :
    a.time.jt + TimeLoop.tick ≤ b.time.jt := by
  have h1 := (julTime_lt ha hb (julTime_time ha) (julTime_time hb)).2 h
  simp only [Stamp.time, Calendar.julday_jd ha.1, Calendar.julday_jd hb.1, Option.getD_some, TimeLoop.tick] at h1 ⊢
  generalize Calendar.jd ⟨a.year, a.month, a.day⟩ = j at h1 ⊢
  generalize Calendar.jd ⟨b.year, b.month, b.day⟩ = k at h1 ⊢
  generalize 3600 * a.hour + 60 * a.min + a.sec = x at h1 ⊢
  generalize 3600 * b.hour + 60 * b.min + b.sec = y at h1 ⊢
  have h2 : ((86400 * j + x : Int) : Rat) < ((86400 * k + y : Int) : Rat) := by push_cast; linarith
  have h3 : 86400 * j + x + 1 ≤ 86400 * k + y := by
    have : 86400 * j + x < 86400 * k + y := by exact_mod_cast h2
    omega
  have h4 : ((86400 * j + x + 1 : Int) : Rat) ≤ ((86400 * k + y : Int) : Rat) := by exact_mod_cast h3
  push_cast at h4
  linarith

theorem decode_steps {V β} (cv : Conv V) (cols : List Col) (e : TimeLoop.End) (T : β → TimeLoop.Time) (D : β → List Char)
    (B : β → List (List V)) : ∀ (ys : List β) (steps : List (TimeLoop.Step (List Char))),
    (∀ x ∈ ys, readValues cv cols (D x) = some (B x)) →
    steps.map (fun s => (s.now, s.data)) = ys.map (fun x => (T x, D x)) →
    ∃ ss, decodeSteps cv cols (steps, e) = (ss, e) ∧ ss.map (fun s => (s.now, s.data)) = ys.map (fun x => (T x, B x)) ∧
      ss.map (fun s => s.nstep) = steps.map (fun s => s.nstep) ∧ ss.map (fun s => s.deltat) = steps.map (fun s => s.deltat)
  | [], [], _, _ => ⟨[], by simp [decodeSteps], rfl, rfl, rfl⟩
  | [], _ :: _, _, h => by simp at h
  | _ :: _, [], _, h => by simp at h
  | y :: ys, s :: steps, hv, h => by
    simp only [List.map_cons, List.cons.injEq, Prod.mk.injEq] at h
    obtain ⟨⟨h1, h2⟩, h3⟩ := h
    obtain ⟨ss, a, b, c, d⟩ := decode_steps cv cols e T D B ys steps (fun x hx => hv x (List.mem_cons_of_mem _ hx)) h3
    refine ⟨⟨s.nstep, s.now, s.deltat, B y⟩ :: ss, ?_, ?_, ?_, ?_⟩
    · simp only [decodeSteps, h2, hv y (by simp), a]
    · simp only [List.map_cons, h1, b]
    · simp only [List.map_cons, c]
    · simp only [List.map_cons, d]

theorem store_eq {V} {vars : List (Var V)} (hn : (vars.map (·.key)).Nodup) (name : List Char) (b : List V) :
    store name b vars = vars.map fun u => if u.key = name then { u with vals := b } else u := by
  induction vars with
  | nil => rfl
  | cons v vars ih =>
    simp only [List.map_cons, List.nodup_cons] at hn
    rw [store]
    split
    · rename_i hv
      rw [List.map_cons, if_pos hv]
      congr 1
      symm
      rw [List.map_congr_left (g := id)]
      · simp
      · intro u hu
        rw [if_neg]; rfl
        intro e
        exact hn.1 (by rw [hv, ← e]; exact List.mem_map_of_mem hu)
    · rename_i hv
      rw [List.map_cons, if_neg hv, ih hn.2]

theorem find_zip {B} : ∀ (cols : List Col) (bufs : List B) (i : Nat) (c : Col) (b : B), (cols.map (·.key)).Nodup →
    cols[i]? = some c → bufs[i]? = some b → (cols.zip bufs).find? (fun x => x.1.key = c.key) = some (c, b)
  | [], _, i, _, _, _, h, _ => by simp at h
  | _ :: _, [], i, _, _, _, _, h => by simp at h
  | a :: cols, x :: bufs, 0, c, b, _, h1, h2 => by
    simp only [List.getElem?_cons_zero, Option.some.injEq] at h1 h2
    subst h1; subst h2
    simp
  | a :: cols, x :: bufs, i + 1, c, b, hn, h1, h2 => by
    simp only [List.map_cons, List.nodup_cons] at hn
    simp only [List.getElem?_cons_succ] at h1 h2
    have hne : a.key ≠ c.key := by
      intro e
      exact hn.1 (by rw [e]; exact List.mem_map_of_mem (List.mem_of_getElem? h1))
    simp only [List.zip_cons_cons, List.find?_cons, hne, decide_false]
    exact find_zip cols bufs i c b hn.2 h1 h2

theorem chunks_get {α} : ∀ (ns : List Nat) (l : List α) (i k n : Nat), ns[i]? = some n → k < n →
    ((chunks ns l)[i]?.bind fun b => b[k]?) = l[(ns.take i).sum + k]?
  | [], _, i, _, _, h, _ => by simp at h
  | m :: ns, l, 0, k, n, h, hk => by
    simp only [List.getElem?_cons_zero, Option.some.injEq] at h
    subst h
    simp [chunks, hk]
  | m :: ns, l, i + 1, k, n, h, hk => by
    simp only [List.getElem?_cons_succ] at h
    have := chunks_get ns (l.drop m) i k n h hk
    simp only [chunks, List.getElem?_cons_succ, List.take_succ_cons, List.sum_cons, this, List.getElem?_drop]
    congr 1; omega

theorem dropWhile_all {p : Char → Bool} {s : List Char} (h : ∀ c ∈ s, p c = true) : s.dropWhile p = [] := by
  induction s with
  | nil => rfl
  | cons c s ih =>
    rw [List.dropWhile_cons_of_pos (h c (by simp))]
    exact ih fun d hd => h d (List.mem_cons_of_mem _ hd)

theorem space_strtol {s : List Char} (h : ∀ c ∈ s, isSpace c = true) : strtol s = (0, s) := by
  have : s.dropWhile isSpace = [] := dropWhile_all h
  unfold strtol
  rw [this]
  rfl

theorem space_strtod {s : List Char} (h : ∀ c ∈ s, isSpace c = true) : strtod s = (0, s) := by
  have : s.dropWhile isSpace = [] := dropWhile_all h
  unfold strtod
  rw [this]
  rfl

end Verif.DataLine
