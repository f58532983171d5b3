import Verif.Lemmas.Balance
/-
Lemmas on the definition of species and phases by equations.
-/
namespace Verif.Formula
open Verif.CText
open Verif.DataLine (Dec)

theorem white_iff (c : Char) : isSpace c = decide (c ∈ white) := by
  by_cases h : c ∈ white
  · have : ∀ c ∈ white, isSpace c = true := by decide
    simp [this c h, h]
  · simp only [white, List.mem_cons, List.not_mem_nil, or_false, not_or] at h
    obtain ⟨h1, h2, h3, h4, h5, h6⟩ := h
    have : c ∉ white := by
      simp only [white, List.mem_cons, List.not_mem_nil, or_false, not_or]
      exact ⟨h1, h2, h3, h4, h5, h6⟩
    simp [isSpace, h1, h2, h3, h4, h5, h6, this]

theorem squeeze {t s : List Char} (h : Spaced t s) : (t.filter fun c => !isSpace c) = s := by
  rw [← h]
  congr 1
  funext c
  rw [white_iff]
  simp

theorem sum_pos (f : Species → Rat) (l : List Species) :
    ((l.map fun s => (s.coef, s)).map fun e => e.1 * f e.2).sum = sideSum f l := by
  simp only [sideSum, List.map_map]; rfl

theorem sum_neg (f : Species → Rat) : ∀ l : List Species,
    ((l.map fun s => (-s.coef, s)).map fun e => e.1 * f e.2).sum = - sideSum f l
  | [] => by simp [sideSum]
  | s :: l => by
    have := sum_neg f l
    simp only [sideSum, List.map_cons, List.sum_cons] at this ⊢
    rw [this]; ring

theorem near_neg {a b : Rat} : Near (-a) (-b) ↔ Near a b := by
  unfold Near; constructor <;> rintro ⟨h1, h2⟩ <;> constructor <;> linarith

theorem near_sub {a b : Rat} : Near (a - b) 0 ↔ Near a b := by
  unfold Near; constructor <;> rintro ⟨h1, h2⟩ <;> constructor <;> linarith

theorem near_sub' {a b : Rat} : Near (-a + b) 0 ↔ Near a b := by
  unfold Near; constructor <;> rintro ⟨h1, h2⟩ <;> constructor <;> linarith

theorem eqn_legit {l r : List Species} (hl : ∀ s ∈ l, s.Fit) (hr : ∀ s ∈ r, s.Fit) (h1 : SideOk l) (h2 : SideOk r) :
    (sideText l ++ '=' :: sideText r).all isLegit = true := by
  rw [List.all_eq_true]
  intro c hc
  simp only [List.mem_append, List.mem_cons] at hc
  rcases hc with hc | rfl | hc
  · exact side_legit hl (side_signs h1) c hc
  · decide
  · exact side_legit hr (side_signs h2) c hc

theorem parseTokens_species {l r : List Species} {d : Species} (hl : ∀ s ∈ l, s.Fit) (hr : ∀ s ∈ d :: r, s.Fit)
    (h1 : SideOk l) (h2 : SideOk (d :: r)) :
    ∃ e : List (Rat × Species), parseTokens true (sideText l ++ '=' :: sideText (d :: r)) =
        .ok (entry (-d.coef, d) :: e.map entry) ∧
      e.Perm ((l.map fun s => (s.coef, s)) ++ r.map fun s => (-s.coef, s)) := by
  have hfl := side_length hl
  have hlhs := lhs_side (n := (sideText l ++ '=' :: sideText (d :: r)).length + 1) (R := sideText (d :: r))
    (by simp only [List.length_append]; omega) hl h1
  have hrf : ∀ s ∈ r, s.Fit := fun s hs => hr s (List.mem_cons_of_mem _ hs)
  have hfr := side_length hrf
  have hrhs := rhs_side (n := (sideText r).length + 1) (by omega) hrf (side_tail h2)
  have hd : sideText (d :: r) = d.text ++ sideText r := by simp [sideText]
  have ha := side_after (R := []) (fun t ht => ⟨hrf t ht, h2.2 t ht⟩) .nil
  rw [List.append_nil] at ha
  have hg := getSpecies_text (hr d (by simp)) h2.1 ha
  unfold parseTokens
  rw [hlhs]
  simp only [ok_bind, if_true]
  rw [hd, hg]
  simp only [ok_bind]
  rw [hrhs]
  simp only [ok_bind]
  cases l with
  | nil =>
    refine ⟨r.map fun s => (-s.coef, s), ?_, by simp⟩
    simp only [List.map_nil, List.map_map]
    rfl
  | cons a m =>
    refine ⟨(m.map fun s => (s.coef, s)) ++ (a.coef, a) :: r.map fun s => (-s.coef, s), ?_, ?_⟩
    · simp only [List.map_cons, List.map_append, List.map_map, List.cons_append]
      rfl
    · rw [List.map_cons, List.cons_append]
      exact List.perm_middle

theorem parseTokens_phase {l r : List Species} {d : Species} (hl : ∀ s ∈ d :: l, s.Fit) (hr : ∀ s ∈ r, s.Fit)
    (h1 : SideOk (d :: l)) (h2 : SideOk r) :
    parseTokens false (sideText (d :: l) ++ '=' :: sideText r) =
        .ok (entry (-d.coef, d) :: ((l.map fun s => (-s.coef, s)) ++ r.map fun s => (s.coef, s)).map entry) := by
  have hfl := side_length hl
  have hlhs := lhs_side (n := (sideText (d :: l) ++ '=' :: sideText r).length + 1) (R := sideText r)
    (by simp only [List.length_append]; omega) hl h1
  have hfr := side_length hr
  have hrhs := rhs_side (n := (sideText r).length + 1) (by omega) hr h2
  unfold parseTokens
  rw [hlhs]
  simp only [ok_bind, Bool.false_eq_true, if_false]
  rw [hrhs]
  simp only [ok_bind, List.map_cons, List.map_append, List.map_map, List.cons_append]
  rfl

theorem composition_neg {b : Body} (hb : b.Short) (k : Rat) :
    Composition ((combine (b.elts (-k))).map fun x => (x.1, -x.2)) fun x => k * b.count x := by
  refine ⟨?_, fun x => ?_⟩
  · rw [List.map_map]
    exact combine_nodup _
  · have hneg : ∀ l : Elts, total x (l.map fun x => (x.1, -x.2)) = - total x l := by
      intro l
      induction l with
      | nil => simp
      | cons e l ih =>
        rw [List.map_cons, total_cons, total_cons, ih]
        by_cases h : e.1 = x <;> simp [h]; ring
    rw [hneg, total_combine, total_body hb]; ring

theorem parseEq_entries {assoc : Bool} {text eqn : List Char} {d d' : Species} {k : Rat} {e : List (Rat × Species)}
    (ht : Spaced text eqn) (hlegit : eqn.all isLegit = true)
    (hp : parseTokens assoc eqn = .ok (entry (-k, d) :: e.map entry)) (hlen : d.name.length < 256)
    (hs : strip d.name = d'.name) (hd : d'.Ok) :
    ∃ comp, parseEq assoc text = .ok (entry (-k, d) :: (sortBy (fun x : Rat × Species => x.2.name) e).map entry, comp) ∧
      Composition comp fun x => k * d'.body.count x := by
  obtain ⟨r, hr⟩ := run_name hd (-k)
  refine ⟨_, ?_, composition_neg (ok_short hd) k⟩
  unfold parseEq
  simp only [squeeze ht]
  rw [if_pos hlegit, hp]
  simp only [ok_bind]
  have hn : (entry (-k, d)).name = d.name := rfl
  have hc : (entry (-k, d)).coef = -k := rfl
  rw [hn, hc, if_neg (by simp only [MAX_LENGTH]; omega), hs, hr]
  simp only [ok_bind]
  have hsort := sortBy_map entry Tok.name e
  rw [hsort]
  rfl

theorem species_length {s : Species} (hz : s.charge.Ok) (h : s.body.text.length ≤ 150) : s.name.length < 256 := by
  have := charge_length (canon_ok hz)
  simp only [Species.name, List.length_append]
  omega

/-- Sums over all entries. -/
theorem entries_sum {d : Species} {l r : List Species} {e : List (Rat × Species)} (f : Species → Rat)
    (hp : e.Perm ((l.map fun s => (s.coef, s)) ++ r.map fun s => (-s.coef, s))) :
    (((-d.coef, d) :: e).map fun e => e.1 * f e.2).sum = sideSum f l - sideSum f (d :: r) := by
  have := (hp.map fun e : Rat × Species => e.1 * f e.2).sum_eq
  rw [List.map_cons, List.sum_cons, this, List.map_append, List.sum_append, sum_pos, sum_neg]
  simp only [sideSum, List.map_cons, List.sum_cons]
  ring

theorem defineSpecies_text {l r : List Species} {d : Species} {text : List Char}
    (hl : ∀ s ∈ l, s.Ok) (hr : ∀ s ∈ d :: r, s.Ok) (h1 : SideOk l) (h2 : SideOk (d :: r))
    (ht : Spaced text (sideText l ++ '=' :: sideText (d :: r))) (hlen : d.body.text.length ≤ 150) (hu : Unmarked d.body.text) :
    ∃ comp b, defineSpecies text = .ok (comp, b) ∧ (b = true ↔ Near d.coef 1 ∧ Balanced l (d :: r)) ∧
      Composition comp fun x => d.coef * d.body.count x := by
  have hlf : ∀ s ∈ l, s.Fit := fun s hs => ok_fit (hl s hs)
  have hrf : ∀ s ∈ d :: r, s.Fit := fun s hs => ok_fit (hr s hs)
  have hd := hr d (by simp)
  obtain ⟨e, he, hp⟩ := parseTokens_species hlf hrf h1 h2
  have hstrip : strip d.name = d.name :=
    strip_unmarked (unmarked_append hu (charge_paren (canon_ok hd.2.1)))
  obtain ⟨comp, hc, hcomp⟩ := parseEq_entries ht (eqn_legit hlf hrf h1 h2) he (species_length hd.2.1 hlen) hstrip hd
  have hsp := sortBy_perm (fun x : Rat × Species => x.2.name) e
  have hok : ∀ x ∈ (-d.coef, d) :: sortBy (fun x : Rat × Species => x.2.name) e, x.2.Ok := by
    intro x hx
    rcases List.mem_cons.1 hx with rfl | hx
    · exact hd
    · have := hp.subset (hsp.subset hx)
      simp only [List.mem_append, List.mem_map] at this
      rcases this with ⟨s, hs, rfl⟩ | ⟨s, hs, rfl⟩
      · exact hl s hs
      · exact hr s (List.mem_cons_of_mem _ hs)
  obtain ⟨b, hb, hiff⟩ := checkEqn_entries hok
  refine ⟨comp, b, ?_, ?_, hcomp⟩
  · unfold defineSpecies
    rw [hc]
    simp only [ok_bind]
    rw [List.map_cons] at hb
    rw [hb]; rfl
  · rw [hiff]
    simp only [entries_sum (fun s => s.charge.value) (hsp.trans hp),
      fun x => entries_sum (d := d) (fun s => s.body.count x) (hsp.trans hp)]
    have h1 : Near (-d.coef) (-1) ↔ Near d.coef 1 := near_neg
    rw [h1]
    unfold Balanced
    simp only [near_sub]

theorem clean_name {s : List Char} (h : Clean s) : cleanName s = s := by
  obtain ⟨-, h⟩ := h
  unfold cleanName
  have h1 := removeFirst_none (h ['(', 'a', 'q', ')'] (by decide))
  have h2 := removeFirst_none (h ['(', 'A', 'Q', ')'] (by decide))
  have h3 := hasSub_false (by decide) (h "H2O(l)".toList (by simp))
  have h4 := hasSub_false (by decide) (h "(H2O(L)".toList (by simp))
  simp only [h1, h2]
  rw [h3]
  simp only [Bool.false_eq_true, if_false]
  rw [h4]
  simp

theorem unmarked_isMarked {s : List Char} (h : Unmarked s) : isMarked s = false := by
  unfold isMarked
  rw [hasSub_false (by decide) (h _ (by decide)), hasSub_false (by decide) (h _ (by decide)),
    hasSub_false (by decide) (h _ (by decide)), hasSub_false (by decide) (h _ (by decide))]
  rfl

theorem clean_append {a b : List Char} (h : Clean a) (hb : ')' ∉ b) : Clean (a ++ b) := by
  refine ⟨unmarked_append h.1 hb, fun m hm hi => ?_⟩
  have key : ∀ m ∈ ["(aq)".toList, "(AQ)".toList, "H2O(l)".toList, "(H2O(L)".toList], m = m.dropLast ++ [')'] := by decide
  rw [key m hm] at hi
  apply h.2 m hm
  rw [key m hm]
  exact infix_append hb hi

theorem definePhase_text {l r : List Species} {d : Species} {text : List Char}
    (hd : d.PhaseOk) (hl : ∀ s ∈ l, s.Ok ∧ Clean s.body.text) (hr : ∀ s ∈ r, s.Ok ∧ Clean s.body.text)
    (h1 : SideOk (d :: l)) (h2 : SideOk r) (hne : l ++ r ≠ [])
    (ht : Spaced text (sideText (d :: l) ++ '=' :: sideText r)) (hlen : d.body.text.length ≤ 150) :
    ∃ comp b, definePhase text = .ok (comp, b) ∧ (b = true ↔ Near d.coef 1 ∧ Balanced (d :: l) r) ∧
      Composition comp fun x => d.coef * d.body.count x := by
  obtain ⟨hd1, hd2, hd3⟩ := hd
  obtain ⟨c, m, hbody⟩ : ∃ c m, d.body = .compound c m := by
    cases h : d.body with
    | electron => rw [h] at hd3; exact hd3.elim
    | compound c m => exact ⟨c, m, rfl⟩
  rw [hbody] at hd3
  obtain ⟨hc1, hc2, hc3, hc4⟩ := hd3
  have hbok : d.body.Ok := by
    rw [hbody]; exact ⟨hc1, hc4.imp id (·.1)⟩
  have hdfit : d.Fit := ⟨hd1, hd2, hbok⟩
  -- the phase without marker
  let d' : Species := { d with body := .compound c [] }
  have hd' : d'.Ok := ⟨hd1, hd2, hc1, hc2, rfl⟩
  have hname' : d'.name = c.text ++ d.charge.canon.text := by simp [d', Species.name, Body.text]
  have hstrip : strip d.name = d'.name := by
    rw [hname', Species.name, hbody, Body.text]
    rcases hc4 with rfl | ⟨hm, hz⟩
    · rw [List.append_nil]
      exact strip_unmarked (unmarked_append hc3 (charge_paren (canon_ok hd2)))
    · rw [hz]
      simp only [Charge.canon, Charge.text, List.append_nil]
      exact strip_marked hm hc3
  have hlf : ∀ s ∈ d :: l, s.Fit := by
    intro s hs
    rcases List.mem_cons.1 hs with rfl | hs
    · exact hdfit
    · exact ok_fit (hl s hs).1
  have hrf : ∀ s ∈ r, s.Fit := fun s hs => ok_fit (hr s hs).1
  have he := parseTokens_phase hlf hrf h1 h2
  obtain ⟨comp, hc, hcomp⟩ := parseEq_entries ht (eqn_legit hlf hrf h1 h2) he (species_length hd2 hlen) hstrip hd'
  have hcount : ∀ x, d'.body.count x = d.body.count x := by
    intro x; rw [hbody]; rfl
  generalize hE : (l.map fun s => (-s.coef, s)) ++ r.map (fun s => (s.coef, s)) = e at hc he
  have hsp := sortBy_perm (fun x : Rat × Species => x.2.name) e
  have hmem : ∀ x ∈ sortBy (fun x : Rat × Species => x.2.name) e, x.2.Ok ∧ Clean x.2.body.text := by
    intro x hx
    have := hsp.subset hx
    rw [← hE] at this
    simp only [List.mem_append, List.mem_map] at this
    rcases this with ⟨s, hs, rfl⟩ | ⟨s, hs, rfl⟩
    · exact hl s hs
    · exact hr s hs
  have hcl : ∀ x ∈ sortBy (fun x : Rat × Species => x.2.name) e, Clean x.2.name :=
    fun x hx => clean_append (hmem x hx).2 (charge_paren (canon_ok (hmem x hx).1.2.1))
  generalize hS : sortBy (fun x : Rat × Species => x.2.name) e = S at *
  have hSne : S.map entry ≠ [] := by
    intro h
    have hS0 : S = [] := by simpa using h
    have := hsp.length_eq
    rw [hS0, ← hE] at this
    simp at this
    apply hne
    rw [List.length_eq_zero_iff.1 (by omega : l.length = 0), List.length_eq_zero_iff.1 (by omega : r.length = 0)]; rfl
  have hunm : ((S.map entry).any fun u => isMarked u.name) = false := by
    rw [List.any_eq_false]
    intro t htS
    obtain ⟨x, hx, rfl⟩ := List.mem_map.1 htS
    have : (entry x).name = x.2.name := rfl
    rw [this, unmarked_isMarked (hcl x hx).1]
    simp
  have hclean : (S.map entry).map (fun u => { u with name := cleanName u.name }) = S.map entry := by
    rw [List.map_map]
    apply List.map_congr_left
    intro x hx
    have := clean_name (hcl x hx)
    simp only [Function.comp, entry, this]
  have hgt := getToken_species (b := .compound c []) (z := d.charge.canon) (R := []) ⟨hc1, .inl rfl⟩ (canon_ok hd2) .nil
  simp only [Body.text, List.append_nil] at hgt
  have hok : ∀ x ∈ (-d.coef, d') :: S, x.2.Ok := by
    intro x hx
    rcases List.mem_cons.1 hx with rfl | hx
    · exact hd'
    · exact (hmem x hx).1
  obtain ⟨b, hb, hiff⟩ := checkEqn_entries hok
  have hsum : ∀ f : Species → Rat, f d' = f d →
      (((-d.coef, d') :: S).map fun e => e.1 * f e.2).sum = - sideSum f (d :: l) + sideSum f r := by
    intro f hf
    have := (hsp.map fun e : Rat × Species => e.1 * f e.2).sum_eq
    rw [List.map_cons, List.sum_cons, this, ← hE, List.map_append, List.sum_append, sum_pos, sum_neg]
    simp only [sideSum, List.map_cons, List.sum_cons, hf]
    ring
  refine ⟨comp, b, ?_, ?_, ?_⟩
  · unfold definePhase
    rw [hc]
    simp only [ok_bind]
    rw [if_neg hSne, hunm]
    simp only [Bool.false_eq_true, if_false]
    have hn : (entry (-d.coef, d)).name = d.name := rfl
    rw [hn, hstrip, hname', hgt]
    simp only
    rw [hclean]
    rw [List.map_cons] at hb
    have hent : entry (-d.coef, d') = ⟨c.text ++ d.charge.canon.text, (entry (-d.coef, d)).coef, d.charge.canon.value⟩ := by
      rw [canon_value, ← hname']; rfl
    rw [hent] at hb
    rw [hb]
    rfl
  · rw [hiff]
    have h1 : Near (-d.coef) (-1) ↔ Near d.coef 1 := near_neg
    rw [h1, hsum (fun s => s.charge.value) rfl]
    unfold Balanced
    rw [near_sub']
    have : (∀ x, x ≠ ['e'] → Near (((-d.coef, d') :: S).map fun e => e.1 * e.2.body.count x).sum 0) ↔
        ∀ x, x ≠ ['e'] → Near (sideSum (fun s => s.body.count x) (d :: l)) (sideSum (fun s => s.body.count x) r) := by
      refine forall_congr' fun x => forall_congr' fun _ => ?_
      rw [hsum (fun s => s.body.count x) (hcount x), near_sub']
    rw [this]
  · refine ⟨hcomp.1, fun x => ?_⟩
    rw [hcomp.2 x]
    simp only [hcount]

/-! ### Ends of formulas -/

theorem getNum_suffix {s : List Char} {d : Rat × List Char} (h : getNum s = .ok d) : d.2 <:+ s := by
  have key : ∀ (b : Bool) (s : List Char), (numSpan b s).2 <:+ s := by
    intro b s
    induction s generalizing b with
    | nil => simp [numSpan]
    | cons c u ih =>
      rw [numSpan]
      split
      · exact (ih b).trans (List.suffix_cons c u)
      · split
        · exact (ih true).trans (List.suffix_cons c u)
        · exact List.suffix_refl _
  unfold getNum at h
  simp only at h
  split at h
  · simp only [Res.ok.injEq] at h; subst h; exact List.suffix_refl _
  · split at h
    · simp at h
    · simp only [Res.ok.injEq] at h; subst h; exact key false s

theorem getNum_stop {s : List Char} (h : Stop s) {d : Rat × List Char} (hd : getNum s = .ok d) : d.2 = s := by
  have := getNum_num (o := none) (r := s) trivial (stop_follow h)
  simp only [numText, List.nil_append] at this
  rw [this] at hd
  simp only [Res.ok.injEq] at hd
  rw [← hd]

/-- A call returns behind a closing parenthesis of its own or an outer level, or at the end of the formula. -/
theorem inSpecies_end : ∀ {n : Nat} {p : Int} {k : Rat} {s : List Char} {t : Elts × List Char × Int}, 0 ≤ p →
    inSpecies n p k s = .ok t → 0 ≤ t.2.2 ∧ (t.2.2 < p ∨ (t.2.2 = 0 ∧ Stop t.2.1))
  | 0, _, _, _, _, _, h => by simp [inSpecies] at h
  | n + 1, p, k, [], t, hp, h => by
    rw [inSpecies] at h
    split at h
    · rename_i hp0
      simp only [Res.ok.injEq] at h; subst h; exact ⟨hp, .inr ⟨hp0, .inl rfl⟩⟩
    · simp at h
  | n + 1, p, k, c :: u, t, hp, h => by
    rw [inSpecies] at h
    split at h
    · rename_i hc
      split at h
      · rename_i hp0
        simp only [Res.ok.injEq] at h; subst h; exact ⟨hp, .inr ⟨hp0, .inr ⟨c, u, rfl, hc⟩⟩⟩
      · simp at h
    · split at h
      · split at h
        · simp at h
        · simp only [Res.ok.injEq] at h; subst h; exact ⟨by simp only; omega, .inl (by simp only; omega)⟩
      · split at h
        · obtain ⟨e, he, h⟩ := bind_eq_ok h
          obtain ⟨d, hd, h⟩ := bind_eq_ok h
          obtain ⟨t', ht, h⟩ := bind_eq_ok h
          simp only [Res.ok.injEq] at h; subst h
          have := inSpecies_end hp ht
          exact this
        · split at h
          · obtain ⟨g, hg, h⟩ := bind_eq_ok h
            obtain ⟨d, hd, h⟩ := bind_eq_ok h
            obtain ⟨t', ht, h⟩ := bind_eq_ok h
            simp only [Res.ok.injEq] at h; subst h
            obtain ⟨h1, h2⟩ := inSpecies_end (by omega) hg
            obtain ⟨h3, h4⟩ := inSpecies_end h1 ht
            refine ⟨h3, ?_⟩
            simp only
            rcases h4 with h4 | h4
            · rcases h2 with h2 | ⟨h2, -⟩
              · left; omega
              · omega
            · exact .inr h4
          · split at h
            · obtain ⟨d, hd, h⟩ := bind_eq_ok h
              obtain ⟨g, hg, h⟩ := bind_eq_ok h
              obtain ⟨t', ht, h⟩ := bind_eq_ok h
              simp only [Res.ok.injEq] at h; subst h
              obtain ⟨h1, h2⟩ := inSpecies_end hp hg
              obtain ⟨h3, h4⟩ := inSpecies_end h1 ht
              refine ⟨h3, ?_⟩
              simp only
              rcases h4 with h4 | h4
              · rcases h2 with h2 | ⟨h2, -⟩
                · left; omega
                · omega
              · exact .inr h4
            · simp at h

/-! ### Names of charges -/

theorem whole_canon {z : Charge} (h : z.Whole) : ∃ neg n, z.canon = whole neg n := by
  cases z with
  | zero => exact ⟨false, 0, rfl⟩
  | row neg n =>
    refine ⟨neg, n + 1, ?_⟩
    unfold whole Charge.canon
    by_cases h0 : n = 0 <;> simp [h0]
  | num neg n f =>
    refine ⟨neg, n, ?_⟩
    have : (f.getD []).all (· = '0') = true := by
      cases f with
      | none => rfl
      | some f => simpa [Charge.Whole] using h
    simp only [Charge.canon, this, if_true]
    rfl

theorem canon_text_iff {z w : Charge} (hz : z.Ok) (hw : w.Ok) (hz' : z.Whole) (hw' : w.Whole) :
    z.canon.text = w.canon.text ↔ z.value = w.value := by
  constructor
  · intro h
    have h1 := getCharge_text (canon_ok hz)
    have h2 := getCharge_text (canon_ok hw)
    rw [h, h2] at h1
    simp only [Res.ok.injEq, Prod.mk.injEq, canon_value] at h1
    exact h1.2.symm
  · intro h
    obtain ⟨a, n, ha⟩ := whole_canon hz'
    obtain ⟨b, m, hb⟩ := whole_canon hw'
    rw [← canon_value z, ← canon_value w, ha, hb, whole_value, whole_value] at h
    rw [ha, hb]
    have hn : (0 : Rat) ≤ n := by positivity
    have hm : (0 : Rat) ≤ m := by positivity
    have zero : ∀ x y : Bool, whole x 0 = whole y 0 := fun _ _ => rfl
    cases a <;> cases b <;> simp at h
    · rw [h]
    · rw [h.1, h.2, zero false true]
    · rw [h.1, h.2, zero false true]
    · rw [h]

end Verif.Formula
