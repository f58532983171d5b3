import Verif.Spec.FString
import Verif.Lemmas.CText
import Verif.Lemmas.StorageBinList
/-
Lemmas for texts exchanged with Fortran and multi-copy.
-/
namespace Verif.FString
open Verif.CText

theorem cString_id {s : Text} (h : CText s) : cString s = s := by
  unfold cString CText at *
  induction s with
  | nil => rfl
  | cons c s ih =>
    have hc : c ≠ '\x00' := fun e => h (by simp [e])
    rw [List.takeWhile_cons]
    have : (c != '\x00') = true := by simp [hc]
    rw [if_pos this, ih fun hs => h (List.mem_cons_of_mem _ hs)]

theorem padLoop_nil (n : Nat) : padLoop n [] = List.replicate n ' ' := by
  induction n with
  | zero => rfl
  | succ n ih => rw [padLoop, ih, List.replicate_succ]

theorem padLoop_eq (n : Nat) (s : Text) : padLoop n s = s.take n ++ List.replicate (n - s.length) ' ' := by
  induction n generalizing s with
  | zero => simp [padLoop]
  | succ n ih =>
    cases s with
    | nil => rw [padLoop, padLoop_nil]; simp [List.replicate_succ]
    | cons c s => rw [padLoop, ih]; simp

theorem padLoop_length (n : Nat) (s : Text) : (padLoop n s).length = n := by
  rw [padLoop_eq]; simp; omega

theorem stripped_unique {p : Char → Bool} {s t t' : Text} (h : IsStripped p s t) (h' : IsStripped p s t') : t = t' := by
  obtain ⟨⟨u, h1, h2⟩, h3⟩ := h
  obtain ⟨⟨u', h1', h2'⟩, h3'⟩ := h'
  have key : ∀ (a b x y : Text), a ++ x = b ++ y → (∀ c ∈ x, p c = true) → (∀ c, b.getLast? = some c → p c = false) →
      b.length ≤ a.length := by
    intro a b x y he hx hb
    by_contra hlt
    have hlt : a.length < b.length := by omega
    obtain ⟨r, hr⟩ : ∃ r, b = a ++ r := by
      rcases List.append_eq_append_iff.1 he with ⟨r, hr, _⟩ | ⟨r, hr, _⟩
      · exact ⟨r, hr⟩
      · rw [hr] at hlt; simp at hlt
    have hxr : x = r ++ y := by rw [hr, List.append_assoc] at he; exact List.append_cancel_left he
    have hrne : r ≠ [] := by
      intro e; rw [hr, e] at hlt; simp at hlt
    have hl : b.getLast? = some (r.getLast hrne) := by
      rw [hr, List.getLast?_append, List.getLast?_eq_some_getLast hrne]; rfl
    have h4 := hb _ hl
    have h5 := hx (r.getLast hrne) (by rw [hxr]; exact List.mem_append_left _ (List.getLast_mem hrne))
    rw [h4] at h5; cases h5
  have e : t ++ u = t' ++ u' := by rw [← h1, ← h1']
  have l1 := key t t' u u' e h2 h3'
  have l2 := key t' t u' u e.symm h2' h3
  exact (List.append_inj e (by omega)).1

theorem lastGraph_le (s : Text) (n : Nat) : lastGraph s n ≤ n := by
  induction n with
  | zero => exact Nat.le_refl _
  | succ n ih =>
    unfold lastGraph
    split
    · split
      · exact Nat.le_refl _
      · omega
    · omega

theorem take_lastGraph (s : Text) (n : Nat) (hn : n ≤ s.length) :
    IsStripped (fun c => !isGraph c) (s.take n) (s.take (lastGraph s n)) := by
  induction n with
  | zero => exact ⟨⟨[], by simp [lastGraph]⟩, by simp [lastGraph]⟩
  | succ n ih =>
    have hlt : n < s.length := by omega
    have hget : s[n]? = some s[n] := List.getElem?_eq_getElem hlt
    have htk : s.take (n + 1) = s.take n ++ [s[n]] := by rw [List.take_add_one, hget]; rfl
    unfold lastGraph
    rw [hget]
    dsimp only
    by_cases hg : isGraph s[n]
    · rw [if_pos hg]
      refine ⟨⟨[], by simp⟩, ?_⟩
      intro c hc
      rw [htk, List.getLast?_append] at hc
      simp only [List.getLast?_singleton, Option.some_or, Option.some.injEq] at hc
      rw [← hc]; simp [hg]
    · rw [if_neg hg]
      obtain ⟨⟨u, h1, h2⟩, h3⟩ := ih (by omega)
      refine ⟨⟨u ++ [s[n]], ?_, ?_⟩, h3⟩
      · rw [htk, ← List.append_assoc, ← h1]
      · intro c hc
        rcases List.mem_append.1 hc with hc | hc
        · exact h2 c hc
        · simp only [List.mem_singleton] at hc
          rw [hc]; simpa using hg

theorem f2c_stripped {s : Text} (h : CText s) : IsStripped (fun c => !isGraph c) s (f2c s) := by
  have := take_lastGraph s s.length (Nat.le_refl _)
  rw [List.take_length] at this
  unfold f2c
  rw [cString_id]
  · exact this
  · intro hm; exact h (List.mem_of_mem_take hm)

theorem trimF_stripped (s : Text) : IsStripped (· == ' ') s (trimF s) := by
  unfold trimF
  constructor
  · refine ⟨(s.reverse.takeWhile (· == ' ')).reverse, ?_, ?_⟩
    · rw [← List.reverse_append, List.takeWhile_append_dropWhile, List.reverse_reverse]
    · intro c hc
      exact mem_takeWhile (p := fun x => x == ' ') (List.mem_reverse.1 hc)
  · intro c hc
    rw [List.getLast?_reverse] at hc
    have := List.head?_dropWhile_not (p := fun x : Char => x == ' ') (l := s.reverse)
    rw [hc] at this
    simpa using this

theorem toC_stripped {s : Text} (h : CText s) : IsStripped (· == ' ') s (toC s) := by
  unfold toC
  obtain ⟨⟨u, h1, h2⟩, h3⟩ := trimF_stripped s
  rw [cString_id]
  · exact ⟨⟨u, h1, h2⟩, h3⟩
  · intro hm; exact h (by rw [h1]; exact List.mem_append_left _ hm)

theorem stripped_append {p : Char → Bool} {s t u : Text} (h : IsStripped p s t) (hu : ∀ c ∈ u, p c = true) :
    IsStripped p (s ++ u) t := by
  obtain ⟨⟨v, h1, h2⟩, h3⟩ := h
  refine ⟨⟨v ++ u, by rw [h1, List.append_assoc], ?_⟩, h3⟩
  intro c hc
  rcases List.mem_append.1 hc with hc | hc
  · exact h2 c hc
  · exact hu c hc

theorem stripped_self {p : Char → Bool} {s : Text} (h : ∀ c, s.getLast? = some c → p c = false) : IsStripped p s s :=
  ⟨⟨[], by simp⟩, h⟩

theorem mem_replicate_blank {n : Nat} {c : Char} (h : c ∈ List.replicate n ' ') : c = ' ' := (List.mem_replicate.1 h).2

/-! ### Copy lines -/

theorem decimal_length_lt (k : Nat) : ∀ n : Nat, n < 10 ^ (k + 1) → (decimal n).length ≤ k + 1 := by
  induction k with
  | zero =>
    intro n hn
    unfold decimal
    rw [if_pos (by omega)]; simp
  | succ k ih =>
    intro n hn
    unfold decimal
    split
    · simp
    · have : n / 10 < 10 ^ (k + 1) := by
        rw [Nat.pow_succ] at hn; omega
      have := ih _ this
      simp; omega

theorem intText_nat {n : Int} (h : 0 ≤ n) : Sbl.intText n = decimal n.natAbs := by
  unfold Sbl.intText; rw [if_neg (by omega)]

theorem editI_eq {w : Nat} {n : Int} (h : 0 ≤ n) (hw : (decimal n.natAbs).length ≤ w) :
    editI w n = List.replicate (w - (decimal n.natAbs).length) ' ' ++ decimal n.natAbs := by
  unfold editI; rw [intText_nat h, if_pos hw]

theorem editI_length {w : Nat} {n : Int} : (editI w n).length = w := by
  unfold editI
  split
  · simp; omega
  · simp

theorem copyLine_some {kw : Text} {a b : Int} (hk : kw.length ≤ 54) :
    copyLine kw a b = some (padLoop 80 ("COPY ".toList ++ kw ++ ' ' :: (editI 10 a ++ editI 10 b))) := by
  unfold copyLine
  simp only
  rw [if_pos]
  simp [editI_length]
  omega

theorem blank_space : isSpace ' ' = true := by decide

theorem toC_copyLine {kw : Text} {a b : Int} (ha : 0 ≤ a) (ha' : a < 10000000000) (hb : 0 ≤ b) (hb' : b < 1000000000)
    (hk : kw.length ≤ 54) (hn : CText kw) :
    ∃ l, copyLine kw a b = some l ∧
      toC l = "COPY ".toList ++ kw ++ ' ' :: (editI 10 a ++ editI 10 b) := by
  refine ⟨_, copyLine_some hk, ?_⟩
  have hla : (decimal a.natAbs).length ≤ 10 := decimal_length_lt 9 _ (by omega)
  have hlb : (decimal b.natAbs).length ≤ 9 := decimal_length_lt 8 _ (by omega)
  have hdig : ∀ (n : Nat), '\x00' ∉ decimal n := by
    intro n hm; have := decimal_digits n _ hm; revert this; decide
  have hrep : ∀ n, '\x00' ∉ List.replicate n ' ' := by
    intro n hm; exact absurd (mem_replicate_blank hm) (by decide)
  have hlen : ("COPY ".toList ++ kw ++ ' ' :: (editI 10 a ++ editI 10 b)).length ≤ 80 := by
    simp [editI_length]; omega
  have hc : CText (padLoop 80 ("COPY ".toList ++ kw ++ ' ' :: (editI 10 a ++ editI 10 b))) := by
    rw [padLoop_eq, List.take_of_length_le hlen, editI_eq ha hla, editI_eq hb (by omega)]
    unfold CText at *
    simp only [List.mem_append, List.mem_cons, not_or]
    refine ⟨⟨⟨by decide, hn⟩, by decide, ⟨hrep _, hdig _⟩, hrep _, hdig _⟩, hrep _⟩
  refine stripped_unique (toC_stripped hc) ?_
  rw [padLoop_eq, List.take_of_length_le hlen]
  refine stripped_append (stripped_self ?_) (fun c hc => by rw [mem_replicate_blank hc]; rfl)
  intro c hc
  rw [editI_eq hb (by omega)] at hc
  have hne := decimal_ne_nil b.natAbs
  have hmem : c ∈ decimal b.natAbs := by
    have : ∀ x : Text, (x ++ decimal b.natAbs).getLast? = some ((decimal b.natAbs).getLast hne) := by
      intro x; rw [List.getLast?_append, List.getLast?_eq_some_getLast hne]; rfl
    have e : "COPY ".toList ++ kw ++ ' ' :: (editI 10 a ++ (List.replicate (10 - (decimal b.natAbs).length) ' ' ++ decimal b.natAbs)) =
        ("COPY ".toList ++ kw ++ ' ' :: (editI 10 a ++ List.replicate (10 - (decimal b.natAbs).length) ' ')) ++ decimal b.natAbs := by
      simp
    rw [e, this] at hc
    rw [← Option.some.inj hc]
    exact List.getLast_mem hne
  have := decimal_digits _ _ hmem
  by_contra hcc
  have hcb : c = ' ' := by simpa using hcc
  rw [hcb] at this; revert this; decide

theorem strtok_word {w : Text} (h0 : w ≠ []) (hw : ∀ c ∈ w, isSpace c = false) {c : Char} (hc : isSpace c = true) (s : Text) :
    strtok isSpace (w ++ c :: s) = w :: strtok isSpace s := by
  unfold strtok
  rw [splitBy_word_sep hw hc, List.filter_cons]
  simp [h0]

theorem strtok_single {w : Text} (h0 : w ≠ []) (hw : ∀ c ∈ w, isSpace c = false) : strtok isSpace w = [w] := by
  unfold strtok
  rw [splitBy_word hw]; simp [h0]

theorem decimal_word (n : Nat) : ∀ c ∈ decimal n, isSpace c = false := fun c hc => digit_not_space (decimal_digits n c hc)

theorem words_copyLine {kw : Text} {a b : Int} (ha : 0 ≤ a) (ha' : a < 10000000000) (hb : 0 ≤ b) (hb' : b < 1000000000)
    (hk0 : kw ≠ []) (hks : ∀ c ∈ kw, isSpace c = false) :
    words ("COPY ".toList ++ kw ++ ' ' :: (editI 10 a ++ editI 10 b)) =
      ["COPY".toList, kw, Sbl.intText a, Sbl.intText b] := by
  have hla : (decimal a.natAbs).length ≤ 10 := decimal_length_lt 9 _ (by omega)
  have hlb : (decimal b.natAbs).length ≤ 9 := decimal_length_lt 8 _ (by omega)
  have hrep : ∀ n, ∀ c ∈ List.replicate n ' ', isSpace c = true := by
    intro n c hm; rw [mem_replicate_blank hm]; rfl
  unfold words
  rw [editI_eq ha hla, editI_eq hb (by omega), intText_nat ha, intText_nat hb]
  have e1 : "COPY ".toList ++ kw ++ ' ' :: (List.replicate (10 - (decimal a.natAbs).length) ' ' ++ decimal a.natAbs ++
      (List.replicate (10 - (decimal b.natAbs).length) ' ' ++ decimal b.natAbs)) =
      "COPY".toList ++ ' ' :: (kw ++ ' ' :: (List.replicate (10 - (decimal a.natAbs).length) ' ' ++ (decimal a.natAbs ++
      (List.replicate (10 - (decimal b.natAbs).length) ' ' ++ decimal b.natAbs)))) := by
    simp
  obtain ⟨k, hk⟩ : ∃ k, 10 - (decimal b.natAbs).length = k + 1 := ⟨9 - (decimal b.natAbs).length, by omega⟩
  rw [e1, strtok_word (by decide) (by decide) blank_space, strtok_word hk0 hks blank_space,
    strtok_seps (hrep _), hk, List.replicate_succ, List.cons_append, strtok_word (decimal_ne_nil _) (decimal_word _) blank_space,
    strtok_seps (hrep _), strtok_single (decimal_ne_nil _) (decimal_word _)]

theorem copyLoop_inOrder {σ} (e : Engine σ) (kw : Text) (pairs : List (Int × Int)) (lines : List Text)
    (hl : List.Forall₂ (fun p l => copyLine kw p.1 p.2 = some l) (pairs.filter fun p => decide (0 ≤ p.1 ∧ 0 ≤ p.2)) lines)
    (s : σ) : ∃ r, copyLoop e kw pairs 0 s = some r ∧ InOrder e (lines.map toC) s r := by
  induction pairs generalizing lines s with
  | nil =>
    cases hl
    exact ⟨_, rfl, .done s⟩
  | cons p ps ih =>
    by_cases hp : 0 ≤ p.1 ∧ 0 ≤ p.2
    · rw [List.filter_cons_of_pos (by simpa using hp)] at hl
      cases hl with
      | cons h1 h2 =>
        rename_i l ls
        have hmap : (l :: ls).map toC = toC l :: ls.map toC := rfl
        rw [hmap]
        unfold copyLoop
        rw [if_pos hp, h1]
        dsimp only
        have hreq : request e (toC l) s = if (e.accumulate (toC l) s).1 ≠ 0 then e.accumulate (toC l) s else e.run (e.accumulate (toC l) s).2 := rfl
        by_cases ha : (e.accumulate (toC l) s).1 ≠ 0
        · rw [if_pos ha] at hreq ⊢
          refine ⟨_, rfl, ?_⟩
          have := InOrder.fail (e := e) (toC l) (ls.map toC) s (by rw [hreq]; exact ha)
          rwa [hreq] at this
        · rw [if_neg ha] at hreq ⊢
          by_cases hb : (e.run (e.accumulate (toC l) s).2).1 ≠ 0
          · rw [if_pos hb]
            refine ⟨_, rfl, ?_⟩
            have := InOrder.fail (e := e) (toC l) (ls.map toC) s (by rw [hreq]; exact hb)
            rwa [hreq] at this
          · rw [if_neg hb]
            have hz : (e.run (e.accumulate (toC l) s).2).1 = 0 := by simpa using hb
            rw [hz]
            obtain ⟨r, hr1, hr2⟩ := ih ls h2 (e.run (e.accumulate (toC l) s).2).2
            refine ⟨r, hr1, InOrder.next _ _ _ _ (by rw [hreq]; exact hz) ?_⟩
            rw [hreq]; exact hr2
    · rw [List.filter_cons_of_neg (by simpa using hp)] at hl
      unfold copyLoop
      rw [if_neg hp]
      exact ih lines hl s

end Verif.FString
