import Verif.Lemmas.FString
/-
C33: texts exchanged with Fortran.  C44: copying many reservoirs.
-/
namespace Verif.FString
open Verif.CText

/-- C33: copying a C string into a Fortran variable writes exactly the variable, whatever the length of
the string: the string padded with blanks, or its beginning if it is too long; the memory behind the
variable is untouched. -/
theorem C33_pad (var more src : Text) :
    ∃ d, pad (var ++ more) src var.length = some (d ++ more) ∧ d.length = var.length ∧
      (src.length ≤ var.length → d = src ++ List.replicate (var.length - src.length) ' ') ∧
      (var.length ≤ src.length → src = d ++ src.drop var.length) := by
  refine ⟨padLoop var.length src, ?_, padLoop_length _ _, ?_, ?_⟩
  · unfold pad
    rw [if_pos (by simp)]; simp
  · intro h; rw [padLoop_eq, List.take_of_length_le h]
  · intro h
    rw [padLoop_eq, Nat.sub_eq_zero_of_le h]; simp

example : pad "......XY".toList "abc".toList 6 = some "abc   XY".toList ∧
    pad "..XY".toList "abc".toList 2 = some "abXY".toList := by decide

/-- C33: the other version also tells the length of the C string, so that the caller can see that the
text was cut. -/
theorem C33_length (var more src : Text) :
    ∃ d, padLen (var ++ more) src var.length = some (d ++ more, (src.length : Int)) ∧
      pad (var ++ more) src var.length = some (d ++ more) := by
  obtain ⟨d, h, _⟩ := C33_pad var more src
  exact ⟨d, by unfold padLen; rw [Int.toNat_natCast, h]; rfl, h⟩

/-- C33: a Fortran text given to the library loses its trailing blanks, nothing else. -/
theorem C33_to_library (s : Text) (h : CText s) : IsStripped (· == ' ') s (toC s) := toC_stripped h

/-- C33: a C string copied into a Fortran variable long enough and given back to the library is unchanged
up to trailing blanks. -/
theorem C33_roundtrip (var src : Text) (h : CText src) (hl : src.length ≤ var.length) :
    ∃ d, pad var src var.length = some d ∧ IsStripped (· == ' ') src (toC d) := by
  obtain ⟨d, h1, h2, h3, -⟩ := C33_pad var [] src
  simp only [List.append_nil] at h1
  refine ⟨d, h1, ?_⟩
  rw [h3 hl]
  have hc : CText (src ++ List.replicate (var.length - src.length) ' ') := by
    unfold CText at *
    intro hm
    rcases List.mem_append.1 hm with hm | hm
    · exact h hm
    · exact absurd (mem_replicate_blank hm) (by decide)
  have e : toC (src ++ List.replicate (var.length - src.length) ' ') = toC src :=
    stripped_unique (toC_stripped hc) (stripped_append (toC_stripped h) fun c hc => by rw [mem_replicate_blank hc]; rfl)
  rw [e]
  exact toC_stripped h

example : (pad "........".toList "a b ".toList 8).map toC = some "a b".toList := by decide

/-- C33 for the library built without the Fortran module (`f2cstring`): all trailing characters that are
not printable ASCII are lost.  Missing for the full property: only blanks should be. -/
theorem C33_roundtrip_f2c_partial (var src : Text) (h : CText src) (hl : src.length ≤ var.length) :
    ∃ d, pad var src var.length = some d ∧ IsStripped (fun c => !isGraph c) src (f2c d) := by
  obtain ⟨d, h1, h2, h3, -⟩ := C33_pad var [] src
  simp only [List.append_nil] at h1
  refine ⟨d, h1, ?_⟩
  rw [h3 hl]
  have hc : CText (src ++ List.replicate (var.length - src.length) ' ') := by
    unfold CText at *
    intro hm
    rcases List.mem_append.1 hm with hm | hm
    · exact h hm
    · exact absurd (mem_replicate_blank hm) (by decide)
  have e : f2c (src ++ List.replicate (var.length - src.length) ' ') = f2c src :=
    stripped_unique (f2c_stripped hc) (stripped_append (f2c_stripped h) fun c hc => by rw [mem_replicate_blank hc]; rfl)
  rw [e]
  exact f2c_stripped h

example : (pad "........".toList "a b ".toList 8).map f2c = some "a b".toList := by decide

/-- C33 fails for `f2cstring` when the text ends with a letter that is not ASCII. -/
theorem C33_nonascii_violated : ∃ var src d : Text, CText src ∧ src.length ≤ var.length ∧
    pad var src var.length = some d ∧ ¬ IsStripped (· == ' ') src (f2c d) := by
  refine ⟨"...".toList, [Char.ofNat 233], [Char.ofNat 233, ' ', ' '], by unfold CText; decide, by decide, by decide, ?_⟩
  intro ⟨⟨u, h1, h2⟩, _⟩
  have e : f2c [Char.ofNat 233, ' ', ' '] = [] := by decide
  rw [e, List.nil_append] at h1
  exact absurd (h2 (Char.ofNat 233) (by rw [← h1]; simp)) (by decide)

/-- C33: the string value of a selected output cell: the variable gets the text padded or cut, and the
length returned is the number of characters of the text that are in it. -/
theorem C33_selected_output (var value : Text) :
    ∃ d, selString var value = some (d, ((min value.length var.length : Nat) : Int)) ∧
      d.length = var.length ∧ d.take (min value.length var.length) = value.take (min value.length var.length) := by
  obtain ⟨d, h1, h2, h3, h4⟩ := C33_pad var [] value
  obtain ⟨d', h5, h6⟩ := C33_length var [] value
  simp only [List.append_nil] at *
  have hd : d' = d := by rw [h1] at h6; exact (Option.some.inj h6).symm
  subst hd
  refine ⟨d', ?_, h2, ?_⟩
  · unfold selString
    rw [h5]
    simp only [Option.map_some]
    congr 2
    split <;> omega
  · by_cases hl : value.length ≤ var.length
    · rw [h3 hl, Nat.min_eq_left hl]; simp
    · have hl : var.length ≤ value.length := by omega
      rw [Nat.min_eq_right hl]
      have := h4 hl
      conv_rhs => rw [this]
      rw [List.take_append_of_le_length (by omega)]

example : selString ".....".toList "pH".toList = some ("pH   ".toList, 2) ∧
    selString ".....".toList "temperature".toList = some ("tempe".toList, 5) := by decide

/-- C44: for every library behaviour, the requests made are those of the pairs without a negative number,
in order, up to the first one that fails, and its result is reported. -/
theorem C44_in_order {σ} (e : Engine σ) (kw : Text) (pairs : List (Int × Int)) (hk : kw.length ≤ 54) (s : σ) :
    ∃ lines, List.Forall₂ (fun p l => copyLine kw p.1 p.2 = some l) (pairs.filter fun p => decide (0 ≤ p.1 ∧ 0 ≤ p.2)) lines ∧
      ∃ r, multicopy e kw pairs s = some r ∧ InOrder e (lines.map toC) s r := by
  have hl : ∀ ps : List (Int × Int), List.Forall₂ (fun p l => copyLine kw p.1 p.2 = some l) ps
      (ps.map fun p => padLoop 80 ("COPY ".toList ++ kw ++ ' ' :: (editI 10 p.1 ++ editI 10 p.2))) := by
    intro ps
    induction ps with
    | nil => exact .nil
    | cons p ps ih => exact .cons (copyLine_some hk) ih
  exact ⟨_, hl _, copyLoop_inOrder e kw pairs _ (hl _) s⟩

/-- C44: the line for a pair reads `COPY keyword source target`.  The target must have at most nine
digits (all numbers of the coupled model have). -/
theorem C44_line_partial (kw : Text) (a b : Int) (ha : 0 ≤ a) (ha' : a ≤ 2147483647) (hb : 0 ≤ b) (hb' : b < 1000000000)
    (hk0 : kw ≠ []) (hks : ∀ c ∈ kw, isSpace c = false) (hn : CText kw) (hk : kw.length ≤ 54) :
    ∃ l, copyLine kw a b = some l ∧ words (toC l) = ["COPY".toList, kw, Sbl.intText a, Sbl.intText b] := by
  obtain ⟨l, h1, h2⟩ := toC_copyLine (kw := kw) ha (by omega) hb hb' hk hn
  exact ⟨l, h1, by rw [h2]; exact words_copyLine ha (by omega) hb hb' hk0 hks⟩

/-- C44: with the library's COPY, exactly the requested pairs are copied, in order.  Missing for the full
property: targets of ten digits. -/
theorem C44_copies_partial {V : Type} (kw : Text) (renum : Int → V → V) (pairs : List (Int × Int)) (m : Int → Option V)
    (hk0 : kw ≠ []) (hks : ∀ c ∈ kw, isSpace c = false) (hn : CText kw) (hk : kw.length ≤ 54)
    (hp : ∀ p ∈ pairs, p.1 ≤ 2147483647 ∧ p.2 < 1000000000) (l0 : Text) :
    ∃ l, multicopy (copyEngine kw renum) kw pairs (l0, m) = some (0, (l, copies renum m pairs)) := by
  unfold multicopy
  induction pairs generalizing m l0 with
  | nil => exact ⟨l0, rfl⟩
  | cons p ps ih =>
    have ihp : ∀ q ∈ ps, q.1 ≤ 2147483647 ∧ q.2 < 1000000000 := fun q hq => hp q (List.mem_cons_of_mem _ hq)
    obtain ⟨hp1, hp2⟩ := hp p (by simp)
    obtain ⟨a, b⟩ := p
    unfold copyLoop copies
    by_cases hab : 0 ≤ a ∧ 0 ≤ b
    · have hna : ¬ (a < 0 ∨ b < 0) := by omega
      rw [if_pos hab, if_neg hna]
      obtain ⟨l, h1, h2⟩ := toC_copyLine (kw := kw) hab.1 (by simp only at hp1; omega) hab.2 hp2 hk hn
      simp only at hp1 hp2
      have h3 := words_copyLine (kw := kw) hab.1 (by omega : a < 10000000000) hab.2 hp2 hk0 hks
      rw [← h2] at h3
      dsimp only
      rw [h1]
      dsimp only
      have hone := Sbl.copyOne_spec renum m a b b (by omega) (by omega) (by omega) (by omega) (by omega) (by omega)
      obtain ⟨m', hm1, hm2⟩ := hone
      have hrun : (copyEngine kw renum).run ((copyEngine kw renum).accumulate (toC l) (l0, m)).2 = (0, (toC l, m')) := by
        have hr := Sbl.readInt_intText (i := a) (r := []) (by omega) (by unfold Sbl.intMax; omega) (by simp)
        have ht := Sbl.copyTargets_one (a := b) (by omega) (by unfold Sbl.intMax; omega)
        rw [List.append_nil] at hr
        simp only [copyEngine, h3, hr, ht, hm1, and_self, if_true]
      have hacc : ((copyEngine kw renum).accumulate (toC l) (l0, m)).1 = 0 := rfl
      have hm' : m' = fun x => if x = b ∧ x ≠ a ∧ (m a).isSome then (m a).map (renum x) else m x := by
        funext x
        cases hma : m a with
        | none => rw [(hm2 x).2 (Or.inl hma)]; simp
        | some v =>
          by_cases hx : x = b ∧ x ≠ a
          · rw [(hm2 x).1 v hma (by omega) (by omega) hx.2]; simp [hx.1, hx.1 ▸ hx.2]
          · rw [(hm2 x).2 (by omega)]
            simp only [Option.isSome_some, and_true]
            rw [if_neg hx]
      rw [hacc, hrun]
      simp only [ne_eq, not_true, if_false]
      rw [← hm']
      exact ih m' ihp (toC l)
    · have hna : (a < 0 ∨ b < 0) := by omega
      rw [if_neg hab, if_pos hna]
      exact ih m ihp l0

/-- The numbers 1 and 2, copied to 3 and 1; the pair with a negative number is skipped. -/
example : (multicopy (copyEngine (V := Int) "solution".toList fun n _ => n) "solution".toList [(1, 3), (-1, 5), (2, 1)]
    ([], fun x => if x = 1 ∨ x = 2 then some x else none)).map (fun r => (r.1, r.2.2 1, r.2.2 3, r.2.2 5)) =
    some (0, some 1, some 3, none) := by decide +kernel

/-- C44 fails for targets of ten digits: the numbers run together and the request fails. -/
theorem C44_wide_violated : ∃ (m : Int → Option Int) (a b : Int), 0 ≤ a ∧ a ≤ 2147483647 ∧ 0 ≤ b ∧ b ≤ 2147483647 ∧
    ∃ r, multicopy (copyEngine (V := Int) "solution".toList fun n _ => n) "solution".toList [(a, b)] ([], m) = some r ∧
      r.1 ≠ 0 ∧ r.2.2 b ≠ copies (fun n _ => n) m [(a, b)] b := by
  refine ⟨fun x => if x = 1 then some 1 else none, 1, 1234567890, by decide, by decide, by decide, by decide, ?_⟩
  have h : (multicopy (copyEngine (V := Int) "solution".toList fun n _ => n) "solution".toList [(1, 1234567890)]
      ([], fun x => if x = 1 then some 1 else none)).map (fun r => (r.1, r.2.2 1234567890)) = some (1, none) := by decide +kernel
  obtain ⟨r, hr1, hr2⟩ := Option.map_eq_some_iff.1 h
  have h1 := congrArg Prod.fst hr2
  have h2 := congrArg Prod.snd hr2
  simp only at h1 h2
  refine ⟨r, hr1, by rw [h1]; decide, ?_⟩
  rw [h2]
  decide +kernel

/-- C44: a failing request stops the copying and its result is returned: here the second of three. -/
example : (multicopy (σ := List Text) ⟨fun l s => (0, l :: s), fun s => (if s.length = 2 then 7 else 0, s)⟩ "exchange".toList
    [(1, 2), (3, 4), (5, 6)] []).map (fun r => (r.1, r.2.length)) = some (7, 2) := by decide +kernel

end Verif.FString
