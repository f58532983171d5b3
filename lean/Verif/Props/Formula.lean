import Verif.Lemmas.Define
/-
Chemical formulas and equations of the PHREEQC input (C68-C74).
-/
namespace Verif.Formula
open Verif.CText
open Verif.DataLine (Dec)

/-! ### Examples used below -/

/-- A number in examples. -/
def exNum (s : String) : Option Dec := some ⟨[], s.toList, none, none⟩

/-- `CaSO4:2H2O`. -/
def gypsum : Compound :=
  ⟨.elem (.plain 'C' ['a']) none (.elem (.plain 'S' []) none (.elem (.plain 'O' []) (exNum "4") .nil)),
    [(exNum "2", .elem (.plain 'H' []) (exNum "2") (.elem (.plain 'O' []) none .nil))]⟩

/-- `Al2((O[18O]0.5)3H)2`: nested groups, a fraction, a name in brackets. -/
def nestedForm : Compound :=
  ⟨.elem (.plain 'A' ['l']) (exNum "2")
    (.group (.group (.elem (.plain 'O' []) none (.elem (.bracketed "18O".toList []) (some ⟨[], ['0'], some ['5'], none⟩) .nil))
      (exNum "3") (.elem (.plain 'H' []) none .nil)) (exNum "2") .nil), []⟩

example : gypsum.Ok ∧ gypsum.text = "CaSO4:2H2O".toList := by decide +kernel
example : nestedForm.Ok ∧ nestedForm.text = "Al2((O[18O]0.5)3H)2".toList := by decide +kernel
example : gypsum.count ['O'] = 6 ∧ gypsum.count ['H'] = 4 ∧ nestedForm.count "[18O]".toList = 3 := by decide +kernel

/-! ### C68: composition of a formula -/

/-- **C68.** Every well-formed formula (any nesting of groups, optional numbers, at most one part behind a colon), followed by
nothing or a charge, is read completely, and the entries made for an element add up to `k` times what the formula contains
of it. -/
theorem C68_formula {c : Compound} {r : List Char} (k : Rat) (hc : c.Ok) (hp : c.parts.length ≤ 1)
    (hr : r = [] ∨ ∃ a u, r = a :: u ∧ (a = '+' ∨ a = '-')) :
    ∃ l, run 0 k (c.text ++ r) = .ok (l, r, 0) ∧ ∀ x, total x l = k * c.count x :=
  ⟨_, run_compound k hc hr, fun x => total_short hp x k⟩

example : ∃ l, run 0 1 ("CaSO4:2H2O".toList ++ []) = .ok (l, [], 0) ∧ ∀ x, total x l = 1 * gypsum.count x :=
  C68_formula (c := gypsum) 1 (by decide +kernel) (by decide) (.inl rfl)

/-- **C68.** Reading ends for every text, after at most as many nested steps as the text has characters (plus one). -/
theorem C68_terminates (p : Int) (k : Rat) (s : List Char) (n : Nat) (h : s.length < n) : inSpecies n p k s ≠ .fuel :=
  (inSpecies_enough s.length s le_rfl n n h h p k).2

/-- **C68.** Whatever the text: if it is accepted, no parenthesis is open and everything up to the end or the sign of the charge
has been read. -/
theorem C68_complete {k : Rat} {s r : List Char} {l : Elts} {p : Int} (h : run 0 k s = .ok (l, r, p)) :
    p = 0 ∧ (r = [] ∨ ∃ a u, r = a :: u ∧ (a = '+' ∨ a = '-')) := by
  obtain ⟨h1, h2⟩ := inSpecies_end le_rfl h
  simp only at h1 h2
  rcases h2 with h2 | h2
  · omega
  · exact h2

example : run 0 1 "Ca(OH)2+2".toList = .ok ([(['C', 'a'], 1), (['O'], 2), (['H'], 2)], ['+', '2'], 0) := by decide +kernel

/-! ### C69: several parts, parts inside parentheses, incomplete names -/

/-- **C69 (part).** Several parts behind colons are added up correctly when only the last one has a factor different from 1. -/
theorem C69_parts_partial {c : Compound} {r : List Char} (k : Rat) (hc : c.Ok)
    (hp : ∀ q ∈ c.parts.dropLast, numValue q.1 = 1) (hr : r = [] ∨ ∃ a u, r = a :: u ∧ (a = '+' ∨ a = '-')) :
    ∃ l, run 0 k (c.text ++ r) = .ok (l, r, 0) ∧ ∀ x, total x l = k * c.count x := by
  refine ⟨_, run_compound k hc hr, fun x => ?_⟩
  have key : ∀ l : List (Option Dec × Form), (∀ q ∈ l.dropLast, numValue q.1 = 1) →
      nested x l = (l.map fun q => numValue q.1 * q.2.count x).sum := by
    intro l
    induction l with
    | nil => intro _; rfl
    | cons q l ih =>
      intro h
      obtain ⟨d, f⟩ := q
      cases l with
      | nil => simp [nested]
      | cons q' l =>
        have h1 : numValue d = 1 := h (d, f) (by simp)
        have := ih (fun y hy => h y (by simp only [List.dropLast_cons₂]; exact List.mem_cons_of_mem _ hy))
        rw [nested, this, h1]
        simp [h1]
  rw [total_compound, key _ hp]; rfl

/-- `A:B:2C`. -/
example : run 0 1 "A:B:2C".toList = .ok ([(['A'], 1), (['B'], 1), (['C'], 2)], [], 0) := by decide +kernel

/-- **C69 violated.** With two parts the factor of the first one applies to the second one as well:
`A:aB:bC` contains `a·b` times `C`. -/
theorem C69_parts_violated {f g h : Form} {a b : Option Dec} (hf : f ≠ .nil) (hf' : f.Ok) (hg : g.Ok) (hh : h.Ok)
    (ha : NumOk a) (hb : NumOk b) :
    ∃ l, run 0 1 (Compound.text ⟨f, [(a, g), (b, h)]⟩) = .ok (l, [], 0) ∧
      ∀ x, total x l = f.count x + numValue a * (g.count x + numValue b * h.count x) := by
  have hc : Compound.Ok ⟨f, [(a, g), (b, h)]⟩ := by
    refine ⟨hf, hf', ?_⟩
    intro q hq
    simp only [List.mem_cons, List.not_mem_nil, or_false] at hq
    rcases hq with rfl | rfl
    · exact ⟨ha, hg⟩
    · exact ⟨hb, hh⟩
  have := run_compound (r := []) 1 hc (.inl rfl)
  rw [List.append_nil] at this
  refine ⟨_, this, fun x => ?_⟩
  rw [total_compound]
  simp [nested]

/-- Two units of water are read as six: 12 and not 4 atoms of hydrogen. -/
example : run 0 1 "SiO2:3Na2O:2H2O".toList =
    .ok ([("Si".toList, 1), (['O'], 2), ("Na".toList, 6), (['O'], 3), (['H'], 12), (['O'], 6)], [], 0) := by decide +kernel

/-- **C69 violated.** A part inside parentheses: the formula `(f:ng)m` with a number behind the parenthesis is an error. -/
theorem C69_group_violated {f g : Form} {a : Option Dec} {m : Dec} (hf : f.Ok) (hg : g.Ok) (ha : NumOk a) (hm : IsNum m)
    (r : List Char) :
    run 0 1 ('(' :: (f.text ++ ':' :: (numText a ++ (g.text ++ ')' :: (m.text ++ r))))) = .err := by
  obtain ⟨c, t, hct⟩ : ∃ c t, m.text = c :: t := by
    cases h : m.text with
    | nil => exact absurd h (num_ne_nil hm)
    | cons c t => exact ⟨c, t, rfl⟩
  have hc := num_head hm c (by simp [hct])
  have herr : ∀ u, run 0 1 (c :: u) = .err := by
    have key : ∀ c ∈ '.' :: digits, ¬ (c = '+' ∨ c = '-') ∧ c ≠ ')' ∧ isUpper c = false ∧ c ≠ 'e' ∧ c ≠ '[' ∧ c ≠ '(' ∧
        c ≠ ':' := by decide
    obtain ⟨h1, h2, h3, h4, h5, h6, h7⟩ := key c (by rcases hc with h | h <;> simp [h])
    intro u
    rw [run, List.length_cons, inSpecies]
    simp [h1, h2, h3, h4, h5, h6, h7]
  rw [run_open, run_form 1 hf (follow_cons (by decide)) (by decide), run_colon,
    getNum_num ha (form_follow hg (follow_cons (by decide)))]
  simp only [ok_bind]
  rw [run_form 1 hg (follow_cons (by decide)) (by decide)]
  have hclose := run_close (p := 0) le_rfl 1 (m.text ++ r)
  simp only [zero_add] at hclose ⊢
  rw [hclose]
  simp only [ok_bind]
  rw [hct, List.cons_append, herr]
  rfl

example : run 0 1 "(Al2O3:2SiO2)3".toList = .err := by decide +kernel

/-- **C69 violated.** A formula that ends behind an opening bracket is read past its end, whatever comes before it. -/
theorem C69_bracket_violated {f : Form} (hf : f.Ok) (k : Rat) : run 0 k (f.text ++ ['[']) = .ub := by
  rw [run_form k hf (follow_cons (by decide)) le_rfl, run_elem 0 k (.inr (.inr rfl))]
  rfl

example : run 0 1 "Ca[".toList = .ub := by decide +kernel

/-! ### C70: combination of equal elements -/

/-- **C70.** Combining a list of elements leaves exactly the elements of the list, each once, with the total of its
coefficients; for every list, in every order. -/
theorem C70_combine (l : Elts) :
    Composition (combine l) (fun x => total x l) ∧ ∀ x, x ∈ (combine l).map (·.1) ↔ x ∈ l.map (·.1) :=
  ⟨⟨combine_nodup l, fun x => total_combine x l⟩, fun x => names_combine x l⟩

example : combine [(['O'], 1), (['H'], 2), (['O'], 3), (['H'], -2)] = [(['H'], 0), (['O'], 4)] := by decide +kernel

/-! ### C71: charges -/

/-- **C71.** The charge of a species is read as written: a row of signs, or a sign and a number. -/
theorem C71_value {c : Compound} {z : Charge} (hc : c.Ok) (hz : z.Ok) :
    ∃ n, getToken (c.text ++ z.text) = .ok (n, z.value, []) := by
  have := getToken_species (b := .compound c []) (z := z) (R := []) ⟨hc, .inl rfl⟩ hz .nil
  simp only [Body.text, List.append_nil] at this
  exact ⟨_, this⟩

/-- **C71.** Two ways of writing a whole charge name the same species if and only if they mean the same charge. -/
theorem C71_names {c : Compound} {z w : Charge} (hc : c.Ok) (hz : z.Ok) (hw : w.Ok) (hz' : z.Whole) (hw' : w.Whole) :
    ∃ n m, getToken (c.text ++ z.text) = .ok (n, z.value, []) ∧ getToken (c.text ++ w.text) = .ok (m, w.value, []) ∧
      (n = m ↔ z.value = w.value) := by
  have h1 := getToken_species (b := .compound c []) (z := z) (R := []) ⟨hc, .inl rfl⟩ hz .nil
  have h2 := getToken_species (b := .compound c []) (z := w) (R := []) ⟨hc, .inl rfl⟩ hw .nil
  simp only [Body.text, List.append_nil] at h1 h2
  refine ⟨_, _, h1, h2, ?_⟩
  rw [List.append_right_inj]
  exact canon_text_iff hz hw hz' hw'

example : getToken "Ca++".toList = .ok ("Ca+2".toList, 2, []) ∧ getToken "Ca+2".toList = .ok ("Ca+2".toList, 2, []) ∧
    getToken "Ca+2.0".toList = .ok ("Ca+2".toList, 2, []) ∧ getToken "Ca+1".toList = .ok ("Ca+".toList, 1, []) ∧
    getToken "Ca-0".toList = .ok ("Ca".toList, 0, []) := by decide +kernel

example : (Charge.row false 1).Ok ∧ (Charge.row false 1).Whole ∧ (Charge.row false 1).text = ['+', '+'] := by
  refine ⟨by decide, trivial, rfl⟩

/-! ### C72: other ways of writing a charge -/

/-- **C72 (part).** A charge with a fraction has the value written, and the species keeps the text. -/
theorem C72_fraction_partial {c : Compound} {neg : Bool} {n : Nat} {f : List Char} (hc : c.Ok)
    (hz : (Charge.num neg n (some f)).Ok) (hf : ¬ ∀ d ∈ f, d = '0') :
    getToken (c.text ++ (Charge.num neg n (some f)).text) =
      .ok (c.text ++ (Charge.num neg n (some f)).text, (Charge.num neg n (some f)).value, []) := by
  have h1 := getToken_species (b := .compound c []) (z := .num neg n (some f)) (R := []) ⟨hc, .inl rfl⟩ hz .nil
  simp only [Body.text, List.append_nil] at h1
  rw [h1]
  have : (f.all (· = '0')) = false := by
    rw [← Bool.not_eq_true, List.all_eq_true]; simpa using hf
  have hcan : (Charge.num neg n (some f)).canon = .num neg n (some f) := by
    simp only [Charge.canon, Option.getD_some, this]; rfl
  rw [hcan]

/-- **C72 violated.** With a fraction, the same charge written in two ways gives two species. -/
theorem C72_fraction_violated {c : Compound} {neg : Bool} {n : Nat} {f : List Char} (hc : c.Ok)
    (hz : (Charge.num neg n (some (f ++ ['0']))).Ok) (hf : ¬ ∀ d ∈ f, d = '0') :
    ∃ a b, getToken (c.text ++ (Charge.num neg n (some f)).text) = .ok (a, (Charge.num neg n (some f)).value, []) ∧
      getToken (c.text ++ (Charge.num neg n (some (f ++ ['0']))).text) = .ok (b, (Charge.num neg n (some f)).value, []) ∧ a ≠ b := by
  have hz' : (Charge.num neg n (some f)).Ok := by
    obtain ⟨h1, h2, h3⟩ := hz
    refine ⟨h1, fun c hc => h2 c (by simp at hc ⊢; exact .inl hc), ?_⟩
    simp [Charge.text] at h3 ⊢; omega
  have h1 := C72_fraction_partial hc hz' hf
  have h2 := C72_fraction_partial hc hz (fun h => hf fun d hd => h d (by simp [hd]))
  have hv : (Charge.num neg n (some (f ++ ['0']))).value = (Charge.num neg n (some f)).value := by
    have hnum : numeral (f ++ ['0']) = numeral f * 10 := by rw [numeral_append]; simp [numeral, digits]
    have h10 : (10 : Rat) ^ f.length ≠ 0 := by positivity
    have : (numeral (f ++ ['0']) : Rat) / 10 ^ (f ++ ['0']).length = (numeral f : Rat) / 10 ^ f.length := by
      rw [hnum, List.length_append, List.length_singleton, pow_succ]
      push_cast
      rw [mul_div_mul_right _ _ (by norm_num)]
    simp only [Charge.value, Option.getD_some, this]
  refine ⟨_, _, h1, hv ▸ h2, ?_⟩
  intro h
  have := congrArg List.length h
  simp [Charge.text] at this

example : getToken "X+2.5".toList = .ok ("X+2.5".toList, 5 / 2, []) ∧
    getToken "X+2.50".toList = .ok ("X+2.50".toList, 5 / 2, []) := by decide +kernel

/-- **C72 violated.** Leading zeros: `+010` is read as octal 8, `+08` is an error. -/
theorem C72_octal_violated :
    getToken "Ca+010".toList = .ok ("Ca+8".toList, 8, []) ∧ getToken "Ca+08".toList = .err := by decide +kernel

/-- **C72 violated.** A charge of 2^32 - 1 is read as -1, under a name with a plus sign. -/
theorem C72_range_violated : getToken "A+4294967295".toList = .ok ("A+".toList, -1, []) := by decide +kernel

/-! ### C73: equations -/

/-- **C73.** SOLUTION_SPECIES: an equation `l = d r` with well-formed species, in any layout of blanks, is parsed, the elements
stored for the species `d` are its composition, and the equation is accepted if and only if the coefficient of `d` is 1 and the
charge and every element (but the electron) agree on both sides, within 1e-9.  (Conditions on `d`: its name has at most 150
characters and contains no marker of solids or gases.) -/
theorem C73_species {l r : List Species} {d : Species} {text : List Char}
    (hl : ∀ s ∈ l, s.Ok) (hr : ∀ s ∈ d :: r, s.Ok) (h1 : SideOk l) (h2 : SideOk (d :: r))
    (ht : Spaced text (sideText l ++ '=' :: sideText (d :: r))) (hlen : d.body.text.length ≤ 150) (hu : Unmarked d.body.text) :
    ∃ comp b, defineSpecies text = .ok (comp, b) ∧ (b = true ↔ Near d.coef 1 ∧ Balanced l (d :: r)) ∧
      Composition comp fun x => d.coef * d.body.count x :=
  defineSpecies_text hl hr h1 h2 ht hlen hu

/-- **C73.** PHASES: an equation `d l = r`, where the phase `d` may be marked as a solid or a gas.  (Conditions on the other
species: their names contain no markers and none of the patterns for dissolved species and liquid water.) -/
theorem C73_phase {l r : List Species} {d : Species} {text : List Char}
    (hd : d.PhaseOk) (hl : ∀ s ∈ l, s.Ok ∧ Clean s.body.text) (hr : ∀ s ∈ r, s.Ok ∧ Clean s.body.text)
    (h1 : SideOk (d :: l)) (h2 : SideOk r) (hne : l ++ r ≠ [])
    (ht : Spaced text (sideText (d :: l) ++ '=' :: sideText r)) (hlen : d.body.text.length ≤ 150) :
    ∃ comp b, definePhase text = .ok (comp, b) ∧ (b = true ↔ Near d.coef 1 ∧ Balanced (d :: l) r) ∧
      Composition comp fun x => d.coef * d.body.count x :=
  definePhase_text hd hl hr h1 h2 hne ht hlen

/-- Example species: `2H2O`, `O2`, `+4H+`, `+4e-`. -/
def exWater : Species := { num := exNum "2", body := .compound ⟨.elem (.plain 'H' []) (exNum "2") (.elem (.plain 'O' []) none .nil), []⟩ [] }
/-- `O2`. -/
def exO2 : Species := { body := .compound ⟨.elem (.plain 'O' []) (exNum "2") .nil, []⟩ [] }
/-- `+4H+`. -/
def exProton : Species :=
  { sign := ['+'], num := exNum "4", body := .compound ⟨.elem (.plain 'H' []) none .nil, []⟩ [], charge := .row false 0 }
/-- `+4e-`. -/
def exElectron : Species := { sign := ['+'], num := exNum "4", body := .electron, charge := .row true 0 }

theorem exOk : exWater.Ok ∧ exO2.Ok ∧ exProton.Ok ∧ exElectron.Ok := by
  refine ⟨?_, ?_, ?_, ?_⟩ <;> refine ⟨by decide +kernel, by decide +kernel, ?_⟩
  · exact ⟨by decide +kernel, by decide, rfl⟩
  · exact ⟨by decide +kernel, by decide, rfl⟩
  · exact ⟨by decide +kernel, by decide, rfl⟩
  · show (Charge.row true 0).value < 0
    decide +kernel

/-- `2H2O = O2 + 4H+ + 4e-` meets the hypotheses of `C73_species`, and is accepted. -/
example : ∃ comp b, defineSpecies "2 H2O = O2 + 4 H+ + 4 e-".toList = .ok (comp, b) ∧
    (b = true ↔ Near exO2.coef 1 ∧ Balanced [exWater] [exO2, exProton, exElectron]) ∧
    Composition comp fun x => exO2.coef * exO2.body.count x := by
  obtain ⟨h1, h2, h3, h4⟩ := exOk
  refine C73_species (l := [exWater]) (r := [exProton, exElectron]) (d := exO2) ?_ ?_ ?_ ?_ ?_ ?_ ?_
  · simpa using h1
  · simpa using ⟨h2, h3, h4⟩
  · exact ⟨.inl rfl, by simp⟩
  · exact ⟨.inl rfl, by simp [exProton, exElectron]⟩
  · unfold Spaced; decide +kernel
  · decide +kernel
  · unfold Unmarked; decide +kernel

example : defineSpecies "2 H2O = O2 + 4 H+ + 4 e-".toList = .ok ([(['O'], 2)], true) ∧
    defineSpecies "2 H2O = O2 + 4 H+ + 3 e-".toList = .ok ([(['O'], 2)], false) ∧
    defineSpecies "H2O = O2 + 4 H+ + 4 e-".toList = .ok ([(['O'], 2)], false) := by decide +kernel

/-- `O2(g) = O2` meets the hypotheses of `C73_phase`. -/
example : ∃ comp b, definePhase "O2(g) = O2".toList = .ok (comp, b) ∧
    (b = true ↔ Near 1 1 ∧ Balanced [{ exO2 with body := .compound ⟨.elem (.plain 'O' []) (exNum "2") .nil, []⟩ ['(', 'g', ')'] }] [exO2]) ∧
    Composition comp fun x => 1 * exO2.body.count x := by
  obtain ⟨h1, h2, h3, h4⟩ := exOk
  refine C73_phase (l := []) (r := [exO2])
    (d := { exO2 with body := .compound ⟨.elem (.plain 'O' []) (exNum "2") .nil, []⟩ ['(', 'g', ')'] }) ?_ ?_ ?_ ?_ ?_ ?_ ?_ ?_
  · refine ⟨by decide +kernel, by decide +kernel, by decide +kernel, by decide, ?_, .inr ⟨by decide, rfl⟩⟩
    unfold Unmarked; decide +kernel
  · simp
  · intro s hs
    simp only [List.mem_singleton] at hs
    subst hs
    refine ⟨h2, ?_, ?_⟩
    · unfold Unmarked; decide +kernel
    · decide +kernel
  · exact ⟨.inl rfl, by simp⟩
  · exact ⟨.inl rfl, by simp⟩
  · simp
  · unfold Spaced; decide +kernel
  · decide +kernel

example : definePhase "CaSO4:2H2O = Ca+2 + SO4-2 + 2 H2O".toList =
    .ok ([("Ca".toList, 1), (['H'], 4), (['O'], 6), (['S'], 1)], true) := by decide +kernel

/-! ### C74: names with `(S)` or `(G)`, long names -/

/-- **C74 (part).** The composition stored for a species is that of its formula if the formula contains no marker. -/
theorem C74_composition_partial {l r : List Species} {d : Species} {text : List Char}
    (hl : ∀ s ∈ l, s.Ok) (hr : ∀ s ∈ d :: r, s.Ok) (h1 : SideOk l) (h2 : SideOk (d :: r))
    (ht : Spaced text (sideText l ++ '=' :: sideText (d :: r))) (hlen : d.body.text.length ≤ 150) (hu : Unmarked d.body.text) :
    ∃ toks comp, parseEq true text = .ok (toks, comp) ∧ Composition comp fun x => d.coef * d.body.count x := by
  obtain ⟨comp, b, h, -, hc⟩ := defineSpecies_text hl hr h1 h2 ht hlen hu
  obtain ⟨p, hp, h⟩ := bind_eq_ok h
  obtain ⟨b', -, h⟩ := bind_eq_ok h
  simp only [Res.ok.injEq, Prod.mk.injEq] at h
  exact ⟨p.1, comp, by rw [hp, ← h.1], hc⟩

/-- **C74 violated.** A group `(S)` in the formula of a species is taken for the marker of a solid: the balanced equation of
`Fe(S)2` is accepted, and the species consists of two atoms of iron and no sulfur. -/
theorem C74_sulfur_violated :
    defineSpecies "Fe + 2S = Fe(S)2".toList = .ok ([("Fe".toList, 2)], true) := by decide +kernel

/-- **C74 violated.** For a phase, the same formula makes the balanced equation unacceptable and the false one acceptable. -/
theorem C74_phase_violated :
    definePhase "Fe(S)2 = Fe + 2S".toList = .ok ([("Fe".toList, 2)], false) ∧
    definePhase "Fe(S)2 = 2Fe".toList = .ok ([("Fe".toList, 2)], true) := by decide +kernel

/-- **C74 violated.** The process is terminated, without an error message of the interface, when the name of the species or phase
defined has 256 or more characters. -/
theorem C74_long_violated {l r : List Species} {d : Species} {text : List Char}
    (hl : ∀ s ∈ l, s.Ok) (hr : ∀ s ∈ d :: r, s.Ok) (h1 : SideOk l) (h2 : SideOk (d :: r))
    (ht : Spaced text (sideText l ++ '=' :: sideText (d :: r))) (hlen : 256 ≤ d.body.text.length) :
    defineSpecies text = .abort := by
  have hlf : ∀ s ∈ l, s.Fit := fun s hs => ok_fit (hl s hs)
  have hrf : ∀ s ∈ d :: r, s.Fit := fun s hs => ok_fit (hr s hs)
  obtain ⟨e, he, -⟩ := parseTokens_species hlf hrf h1 h2
  have hn : MAX_LENGTH ≤ (entry (-d.coef, d)).name.length := by
    show 256 ≤ (d.body.text ++ _).length
    rw [List.length_append]; omega
  unfold defineSpecies parseEq
  simp only [squeeze ht]
  rw [if_pos (eqn_legit hlf hrf h1 h2), he]
  simp only [ok_bind]
  rw [if_pos hn]
  rfl

example : defineSpecies ("A=A".toList ++ List.replicate 255 'a') = .abort := by decide +kernel

end Verif.Formula
