import Verif.Lemmas.Mms
/-
C32: mixing requests.
-/
namespace Verif.Mms
open Verif.CText
open Verif.Sbl (intText)

/-- C32 without evaporation: a request that names stored solutions runs without error and does what was
asked: the mixture has the given solutions with the given fractions (to the digits printed), is saved
under the requested numbers, reacts with exactly the requested reactants that exist, scaled by the fill
factor and back.  Missing for the full property: a reaction temperature is only used if a reaction
pressure and a gas phase with the same number exist (`C32_temperature_violated`), and rounding of the
fractions to the digits printed (`near`). -/
theorem C32_request_partial {S R} (ch : Chem S R) (num : Rat → Text) (rd : Text → Option Rat) (near : Rat → Rat)
    (hn : NumOk num rd near) (junk : Bool) (rq : Request) (s : Inst (World S R)) (hcl : s.clear = true)
    (hfill : 0 < rq.fill) (hne : rq.mix ≠ []) (hev : ∀ c ∈ rq.mix, c.1 = 1 → 0 ≤ c.2) (comps : List (S × Rat))
    (hc : List.Forall₂ (fun c x => s.world.sol c.1 = some x.1 ∧ x.2 = near c.2) rq.mix comps)
    (hm : ∀ c ∈ rq.mix, IntOk c.1) (hs : IntOk rq.sol) (hco : IntOk rq.cons) (hu : ∀ k, IntOk (rq.user k))
    (ht : 0 ≤ rq.user .temperature → (s.world.ent .temperature (rq.user .temperature)).isSome →
      (s.world.ent .pressure (rq.user .temperature)).isSome ∧ (s.world.ent .gasPhase (rq.user .temperature)).isSome) :
    (runMix (engine ch rd) num junk rq s).1 = 0 ∧
    Asked ch rq comps (near rq.fill) (near (1 / rq.fill)) s.world (runMix (engine ch rd) num junk rq s).2.world := by
  have _ := hfill
  have he : evap rq.mix = false := by
    unfold evap
    rw [List.any_eq_false]
    intro c hc
    simp only [decide_eq_true_eq]
    rintro ⟨h1, h2⟩
    exact absurd (hev c hc h1) (by rw [not_le]; exact h2)
  refine runMix_asked ch hn junk rq s hcl 1 ?_ comps hne ?_ hm hs hco hu ht
  · unfold negFactor; rw [he]; rfl
  · refine hc.imp ?_
    intro a b ⟨h1, h2⟩
    refine ⟨h1, ?_⟩
    rw [h2, he]; unfold fracOut; simp

/-- C32 for evaporation and sublimation: one negative fraction `x`, of solution 1.  It is multiplied such
that it removes `x` times the mean water mass of the other solutions.  Missing: as for
`C32_request_partial`, and requests with several negative fractions (`C32_negative_violated`). -/
theorem C32_evaporation_partial {S R} (ch : Chem S R) (num : Rat → Text) (rd : Text → Option Rat) (near : Rat → Rat)
    (hn : NumOk num rd near) (junk : Bool) (rq : Request) (s : Inst (World S R)) (hcl : s.clear = true)
    (hfill : 0 < rq.fill) (pre post : List (Int × Rat)) (x : Rat) (hx : x < 0) (hmix : rq.mix = pre ++ (1, x) :: post)
    (hp : ∀ c ∈ pre ++ post, 0 ≤ c.2) (hsum : ((pre ++ post).map fun c => c.2).sum ≠ 0)
    (c1 : List S) (v : S) (c2 : List S)
    (h1 : List.Forall₂ (fun (c : Int × Rat) y => s.world.sol c.1 = some y) pre c1) (hv : s.world.sol 1 = some v)
    (h2 : List.Forall₂ (fun (c : Int × Rat) y => s.world.sol c.1 = some y) post c2)
    (hw : ∀ y ∈ c1 ++ c2, 0 ≤ ch.water y) (hwv : 0 < ch.water v)
    (hm : ∀ c ∈ rq.mix, IntOk c.1) (hs : IntOk rq.sol) (hco : IntOk rq.cons) (hu : ∀ k, IntOk (rq.user k))
    (ht : 0 ≤ rq.user .temperature → (s.world.ent .temperature (rq.user .temperature)).isSome →
      (s.world.ent .pressure (rq.user .temperature)).isSome ∧ (s.world.ent .gasPhase (rq.user .temperature)).isSome) :
    let mean := meanWater (((pre ++ post).zip (c1 ++ c2)).map fun p => (p.1.2, ch.water p.2))
    let e := x * (mean / ch.water v)
    let comps := c1.zip (pre.map fun c => near c.2) ++ (v, near e) :: c2.zip (post.map fun c => near c.2)
    (runMix (engine ch rd) num junk rq s).1 = 0 ∧
    Asked ch rq comps (near rq.fill) (near (1 / rq.fill)) s.world (runMix (engine ch rd) num junk rq s).2.world ∧
    ((((pre ++ post).zip (c1 ++ c2)).map fun p => p.1.2 * ch.water p.2).sum + e * ch.water v =
      mean * (rq.mix.map fun c => c.2).sum) := by
  intro mean e comps
  have _ := hfill
  have he : evap rq.mix = true := by
    unfold evap; rw [hmix, List.any_append]; simp [hx]
  -- the sums
  have sums : ∀ (l : List (Int × Rat)) (ys : List S), List.Forall₂ (fun (c : Int × Rat) y => s.world.sol c.1 = some y) l ys →
      (∀ c ∈ l, 0 ≤ c.2) → ∀ t : Sums, l.foldlM (sumOne ((engine ch rd).store s.world).water) t =
        some { t with posMix := t.posMix + ((l.zip ys).map fun p => p.1.2 * ch.water p.2).sum, posFrac := t.posFrac + (l.map fun c => c.2).sum } := by
    intro l ys h
    induction h with
    | nil => intro _ t; simp
    | cons ha _ ih =>
      rename_i a b l ys _
      intro hpos t
      rw [List.foldlM_cons]
      have hst : ((engine ch rd).store s.world).water a.1 = some (ch.water b) := by
        change (s.world.sol a.1).map ch.water = _; rw [ha]; rfl
      have h0 : 0 ≤ a.2 := hpos a (by simp)
      have : sumOne ((engine ch rd).store s.world).water t a = some { t with posMix := t.posMix + a.2 * ch.water b, posFrac := t.posFrac + a.2 } := by
        unfold sumOne; rw [hst]; dsimp only; rw [if_pos h0]
      rw [this]
      change List.foldlM _ _ l = _
      rw [ih (fun c hc => hpos c (List.mem_cons_of_mem _ hc))]
      simp only [List.zip_cons_cons, List.map_cons, List.sum_cons, Option.some.injEq, Sums.mk.injEq, and_true]
      constructor <;> ring
  have hlen : pre.length = c1.length := h1.length_eq
  have hzip : (pre ++ post).zip (c1 ++ c2) = pre.zip c1 ++ post.zip c2 := List.zip_append hlen
  generalize hA : (((pre ++ post).zip (c1 ++ c2)).map fun p => p.1.2 * ch.water p.2).sum = A
  generalize hF : ((pre ++ post).map fun c => c.2).sum = F at hsum
  have hmean : mean = A / F := by
    change meanWater _ = _
    unfold meanWater
    rw [List.map_map, List.map_map, ← hA, ← hF]
    congr 2
    have hl2 : (pre ++ post).length ≤ (c1 ++ c2).length := by simp [h1.length_eq, h2.length_eq]
    have : ((fun c : Rat × Rat => c.1) ∘ fun p : (Int × Rat) × S => (p.1.2, ch.water p.2)) = (fun c : Int × Rat => c.2) ∘ Prod.fst := rfl
    rw [this, ← List.map_map, List.map_fst_zip hl2]
  have hApos : 0 ≤ A := by
    rw [← hA]
    apply sum_nonneg
    intro q hq
    obtain ⟨p, hp', rfl⟩ := List.mem_map.1 hq
    exact mul_nonneg (hp _ (List.of_mem_zip hp').1) (hw _ (List.of_mem_zip hp').2)
  have hFpos : 0 ≤ F := by
    rw [← hF]
    apply sum_nonneg
    intro q hq
    obtain ⟨p, hp', rfl⟩ := List.mem_map.1 hq
    exact hp _ hp'
  have hfac : negFactor ((engine ch rd).store s.world).water rq.mix = some (mean / ch.water v) := by
    unfold negFactor
    rw [if_pos he, hmix, List.foldlM_append, sums pre c1 h1 (fun c hc => hp c (List.mem_append_left _ hc))]
    have hst : ((engine ch rd).store s.world).water 1 = some (ch.water v) := by
      change (s.world.sol 1).map ch.water = _; rw [hv]; rfl
    change Option.map _ (List.foldlM _ _ ((1, x) :: post)) = _
    rw [List.foldlM_cons]
    have : sumOne ((engine ch rd).store s.world).water ⟨0 + ((pre.zip c1).map fun p => p.1.2 * ch.water p.2).sum, 0 + (pre.map fun c => c.2).sum, 0⟩ (1, x) =
        some ⟨0 + ((pre.zip c1).map fun p => p.1.2 * ch.water p.2).sum, 0 + (pre.map fun c => c.2).sum, ch.water v⟩ := by
      unfold sumOne; rw [hst]; dsimp only; rw [if_neg (by rw [not_le]; exact hx)]
    rw [this]
    change Option.map _ (List.foldlM _ _ post) = _
    rw [sums post c2 h2 (fun c hc => hp c (List.mem_append_right _ hc))]
    simp only [Option.map_some]
    rw [if_pos hwv]
    have eA : 0 + ((pre.zip c1).map fun p => p.1.2 * ch.water p.2).sum + ((post.zip c2).map fun p => p.1.2 * ch.water p.2).sum = A := by
      rw [← hA, hzip, List.map_append, List.sum_append]; ring
    have eF : 0 + (pre.map fun c => c.2).sum + (post.map fun c => c.2).sum = F := by
      rw [← hF, List.map_append, List.sum_append]; ring
    rw [eA, eF, hmean, abs_of_nonneg]
    exact div_nonneg (div_nonneg hApos hFpos) (le_of_lt hwv)
  have hcomp : List.Forall₂ (fun c x => s.world.sol c.1 = some x.1 ∧ x.2 = near (fracOut (evap rq.mix) (mean / ch.water v) c.2)) rq.mix comps := by
    have part : ∀ (l : List (Int × Rat)) (ys : List S), List.Forall₂ (fun (c : Int × Rat) y => s.world.sol c.1 = some y) l ys →
        (∀ c ∈ l, 0 ≤ c.2) → List.Forall₂ (fun c x => s.world.sol c.1 = some x.1 ∧ x.2 = near (fracOut true (mean / ch.water v) c.2)) l (ys.zip (l.map fun c => near c.2)) := by
      intro l ys h
      induction h with
      | nil => intro _; exact .nil
      | cons ha _ ih =>
        rename_i a b l ys _
        intro hpos
        refine .cons ⟨ha, ?_⟩ (ih fun c hc => hpos c (List.mem_cons_of_mem _ hc))
        have : ¬ a.2 < 0 := by rw [not_lt]; exact hpos a (by simp)
        simp [fracOut, this]
    have app : ∀ (l1 l2 : List (Int × Rat)) (r1 r2 : List (S × Rat)) (P : Int × Rat → S × Rat → Prop), List.Forall₂ P l1 r1 → List.Forall₂ P l2 r2 →
        List.Forall₂ P (l1 ++ l2) (r1 ++ r2) := by
      intro l1 l2 r1 r2 P h1 h2
      induction h1 with
      | nil => exact h2
      | cons h _ ih => exact .cons h ih
    rw [he, hmix]
    refine app _ _ _ _ _ (part pre c1 h1 fun c hc => hp c (List.mem_append_left _ hc)) (.cons ⟨hv, ?_⟩ (part post c2 h2 fun c hc => hp c (List.mem_append_right _ hc)))
    simp [fracOut, hx, e]
  have key := runMix_asked ch hn junk rq s hcl _ hfac comps (by rw [hmix]; simp) hcomp hm hs hco hu ht
  refine ⟨key.1, key.2, ?_⟩
  have e1 : (rq.mix.map fun c => c.2).sum = F + x := by
    rw [hmix, ← hF]; simp only [List.map_append, List.map_cons, List.sum_append, List.sum_cons]; ring
  rw [e1]
  have hv0 : ch.water v ≠ 0 := ne_of_gt hwv
  have e2 : e * ch.water v = x * mean := by
    change x * (mean / ch.water v) * ch.water v = _
    rw [mul_assoc, div_mul_cancel₀ _ hv0]
  have e3 : mean * F = A := by rw [hmean, div_mul_cancel₀ _ hsum]
  rw [e2, mul_add, e3]; ring

/-- C32: the scaling by the fill factor is undone.  For every quantity `q` of a solution that is
proportional to its size: the reservoir ends with the amount of the mixture plus what the reactants gave
to `fill` times the mixture, divided by `fill`; without reactants (requested ones that do not exist) it
is the amount of the mixture. -/
theorem C32_fill {S R} (ch : Chem S R) (rq : Request) (comps : List (S × Rat)) (w w' : World S R) (hfill : 0 < rq.fill)
    (q : S → Rat) (hq : ∀ l, q (ch.mix l) = (l.map fun c => c.2 * q c.1).sum) (hr : ∀ s, q (ch.react s []) = q s)
    (h : Asked ch rq comps rq.fill (1 / rq.fill) w w') (hany : anyReactant rq) :
    ∃ z, w'.sol rq.sol = some z ∧
      (let s0 := ch.mix [(mixture ch comps, rq.fill)]
       q z = (comps.map fun c => c.2 * q c.1).sum + (q (ch.react s0 (reactants ch w rq allKinds)) - q s0) / rq.fill) ∧
      (reactants ch w rq allKinds = [] → q z = (comps.map fun c => c.2 * q c.1).sum) := by
  obtain ⟨_, _, h3, _⟩ := h
  obtain ⟨h4, _⟩ := h3 hany
  have hm : q (mixture ch comps) = (comps.map fun c => c.2 * q c.1).sum := by unfold mixture; rw [hr, hq]
  have h0 : rq.fill ≠ 0 := ne_of_gt hfill
  have hs0 : q (ch.mix [(mixture ch comps, rq.fill)]) = rq.fill * q (mixture ch comps) := by rw [hq]; simp
  have main : q (ch.react (ch.mix [(ch.react (ch.mix [(mixture ch comps, rq.fill)]) (reactants ch w rq allKinds), 1 / rq.fill)]) []) =
      q (ch.react (ch.mix [(mixture ch comps, rq.fill)]) (reactants ch w rq allKinds)) / rq.fill := by
    rw [hr, hq]; simp; ring
  refine ⟨_, h4, ?_, ?_⟩
  · dsimp only
    rw [main, ← hm, hs0]; field_simp; ring
  · intro he
    rw [main, he, hr, hs0, ← hm]; field_simp

/-! ### A concrete chemistry, number format and world -/

/-- Solutions and reactants are amounts; all entities take part with their amount and double. -/
def toy : Chem Rat Rat where
  mix l := (l.map fun c => c.2 * c.1).sum
  react s us := s + (us.map fun u => u.2).sum
  after _ us k := ((us.filter fun u => u.1 = k).map fun u => 2 * u.2).sum
  set c _ := match c with | .moles _ x => x | .time _ x => x | .temp _ x => x
  water s := s

/-- Rational numbers written exactly as fractions. -/
def numQ (x : Rat) : Text := intText x.num ++ '/' :: decimal x.den

/-- Read such a number. -/
def rdQ (t : Text) : Option Rat :=
  match (strtol t).2 with
  | '/' :: u => some (((strtol t).1 : Rat) / ((strtol u).1 : Rat))
  | _ => none

theorem strtol_intText (n : Int) {r : Text} (hr : ∀ c, r.head? = some c → isDigit c = false) : strtol (intText n ++ r) = (n, r) := by
  unfold intText
  split
  · rename_i h
    have h1 : isSpace '-' = false := by decide
    unfold strtol
    rw [List.cons_append, List.dropWhile_cons_of_neg (by simp [h1])]
    have hs : readSign ('-' :: (decimal n.natAbs ++ r)) = (true, decimal n.natAbs ++ r) := rfl
    rw [hs]
    have hrd := readDigits_append (decimal_digits n.natAbs) 0 hr
    rw [numeral_decimal] at hrd
    have hne := decimal_ne_nil n.natAbs
    have hdig := decimal_digits n.natAbs
    cases hd : decimal n.natAbs with
    | nil => exact absurd hd hne
    | cons c ds =>
      rw [hd] at hrd hdig
      have hc := hdig c (by simp)
      simp only [List.cons_append] at hrd ⊢
      unfold strtolBody
      dsimp only
      rw [if_pos hc, hrd]
      simp only [Nat.zero_mul, Nat.zero_add, if_true, Prod.mk.injEq, and_true]
      omega
  · rename_i h
    rw [strtol_decimal _ hr]
    simp; omega

theorem numQ_ok : NumOk numQ rdQ id := by
  intro x
  have hd : ∀ c, ('/' :: decimal x.den).head? = some c → isDigit c = false := by
    intro c hc; simp at hc; subst hc; decide
  refine ⟨?_, ?_, ?_⟩
  · unfold numQ; simp
  · intro c hc
    unfold numQ at hc
    rcases List.mem_append.1 hc with hc | hc
    · exact intText_word _ c hc
    · rcases List.mem_cons.1 hc with hc | hc
      · subst hc; decide
      · exact digit_not_space (decimal_digits _ c hc)
  · unfold rdQ numQ
    rw [strtol_intText _ hd]
    dsimp only
    have := strtol_decimal x.den (r := []) (by simp)
    rw [List.append_nil] at this
    change some ((x.num : Rat) / (((strtol (decimal x.den)).1 : Int) : Rat)) = some x
    rw [this]
    simp [Rat.num_div_den]

/-- Solutions 1, 2, 3; reaction 7, exchanger 7, temperature 7. -/
def world0 : World Rat Rat where
  sol n := if n = 1 then some 1 else if n = 2 then some 4 else if n = 3 then some 8 else none
  ent k n := if n = 7 ∧ (k = .reaction ∨ k = .exchange ∨ k = .temperature) then some 3 else none

/-- Mix solutions 2 and 3 into 100 and 200, with reaction and exchanger 7 and a surface that does not exist. -/
def request0 : Request where
  mix := [(2, 1 / 4), (3, 3 / 4)]
  cons := 200
  fill := 2
  sol := 100
  user k := match k with | .reaction => 7 | .exchange => 7 | .surface => 9 | _ => -1
  rxnmols := 5
  tempc := 25
  tsec := 60
  filesOn := false

/-- The hypotheses of `C32_request_partial` are met, and the reservoir gets `(2·7 + 10 + 3) / 2`. -/
example : (runMix (engine toy rdQ) numQ false request0 ⟨[], true, false, world0⟩).1 = 0 ∧
    (runMix (engine toy rdQ) numQ false request0 ⟨[], true, false, world0⟩).2.world.sol 200 = some 7 ∧
    (runMix (engine toy rdQ) numQ false request0 ⟨[], true, false, world0⟩).2.world.sol 100 = some (27 / 2) ∧
    (runMix (engine toy rdQ) numQ false request0 ⟨[], true, false, world0⟩).2.world.ent .exchange 7 = some 6 := by
  decide +kernel

example : (runMix (engine toy rdQ) numQ false request0 ⟨[], true, false, world0⟩).1 = 0 ∧
    Asked toy request0 [(4, 1 / 4), (8, 3 / 4)] 2 (1 / 2) world0 (runMix (engine toy rdQ) numQ false request0 ⟨[], true, false, world0⟩).2.world :=
  C32_request_partial toy numQ rdQ id numQ_ok false request0 ⟨[], true, false, world0⟩ rfl (by decide +kernel) (by decide) (by decide +kernel)
    [(4, 1 / 4), (8, 3 / 4)] (.cons ⟨rfl, rfl⟩ (.cons ⟨rfl, rfl⟩ .nil)) (by intro c hc; revert hc; simp [request0]; rintro (rfl | rfl) <;> simp [IntOk])
    (by simp [IntOk, request0]) (by simp [IntOk, request0]) (by intro k; cases k <;> simp [IntOk, request0]) (by simp [request0])

/-- Evaporation: half of solution 3 and a quarter of its water removed with solution 1. -/
def request1 : Request := { request0 with mix := [(3, 1 / 2), (1, -1 / 8)], user := fun _ => -1 }

example : let r := runMix (engine toy rdQ) numQ false request1 ⟨[], true, false, world0⟩
    r.1 = 0 ∧ r.2.world.sol 200 = some 3 ∧
    Asked toy request1 [(8, 1 / 2), (1, -1)] 2 (1 / 2) world0 r.2.world := by
  have h := C32_evaporation_partial toy numQ rdQ id numQ_ok false request1 ⟨[], true, false, world0⟩ rfl (by decide +kernel)
    [(3, 1 / 2)] [] (-1 / 8) (by decide +kernel) rfl (by decide +kernel) (by decide +kernel) [8] 1 [] (.cons rfl .nil) rfl .nil
    (by decide +kernel) (by decide +kernel) (by intro c hc; revert hc; simp [request1]; rintro (rfl | rfl) <;> simp [IntOk])
    (by simp [IntOk, request0, request1]) (by simp [IntOk, request0, request1]) (by intro k; simp [IntOk, request1]) (by simp [request1])
  refine ⟨h.1, by decide +kernel, ?_⟩
  have e : ((-1 / 8 : Rat) * (meanWater [((1 / 2 : Rat), (8 : Rat))] / 1)) = -1 := by decide +kernel
  have h2 := h.2.1
  change Asked toy request1 [(8, 1 / 2), (1, (-1 / 8 : Rat) * (meanWater [((1 / 2 : Rat), (8 : Rat))] / 1))] 2 (1 / 2) world0 _ at h2
  rw [e] at h2
  exact h2

/-- C32 fails for a reaction temperature: it exists and is requested, but is neither set nor used. -/
theorem C32_temperature_violated : ∃ (rq : Request) (w : World Rat Rat), 0 ≤ rq.user .temperature ∧
    (w.ent .temperature (rq.user .temperature)).isSome ∧
    (runMix (engine toy rdQ) numQ false rq ⟨[], true, false, w⟩).1 = 0 ∧
    ¬ Asked toy rq [(4, 1)] 1 1 w (runMix (engine toy rdQ) numQ false rq ⟨[], true, false, w⟩).2.world := by
  refine ⟨{ request0 with mix := [(2, 1)], fill := 1, user := fun k => match k with | .temperature => 7 | _ => -1 }, world0,
    by decide, by decide +kernel, by decide +kernel, ?_⟩
  intro ⟨_, _, h, _⟩
  have h1 := (h ⟨.temperature, by decide, by decide⟩).2 .temperature 7
  exact absurd h1 (by decide +kernel)

/-- C32 fails when a solution of an evaporation request is missing: the request before is run again and
success is reported.  Here 100 was set to 7 by the first request; the second one, for reservoir 101,
fails to be written and 100 is reacted a second time. -/
theorem C32_missing_violated : ∃ (rq1 rq2 : Request) (w : World Rat Rat),
    let s1 := runMix (engine toy rdQ) numQ false rq1 ⟨[], true, false, w⟩
    let s2 := runMix (engine toy rdQ) numQ false rq2 s1.2
    s2.1 = 0 ∧ (∃ c ∈ rq2.mix, s1.2.world.sol c.1 = none) ∧ rq2.sol ≠ rq1.sol ∧ rq2.cons ≠ rq1.sol ∧
    s2.2.world.sol rq1.sol ≠ s1.2.world.sol rq1.sol ∧ s2.2.world.sol rq2.sol = none := by
  refine ⟨{ request0 with mix := [(100, 1), (3, 1)] }, { request0 with mix := [(1, -1), (55, 1)], sol := 101, cons := 201 },
    { world0 with sol := fun n => if n = 100 then some 6 else world0.sol n }, ?_⟩
  decide +kernel

/-- C32 fails for several negative fractions in an evaporation request: the water of the last one is used
for all.  Here 1/2 of the mean water 1 should be removed with solution 1, but 1/4 is. -/
theorem C32_negative_violated : ∃ (st : Store) (rq : Request), rq.mix = [(3, 1), (1, -1 / 2), (7, -1 / 4)] ∧
    st.water 3 = some 1 ∧ st.water 1 = some 1 ∧ (preMix numQ st rq).ok = true ∧
    ((preMix numQ st rq).lines[2]?).bind (parse rdQ) = some (.comp 1 (-1 / 4)) := by
  refine ⟨⟨fun n => if n = 7 then some 2 else some 1, fun _ _ => false⟩, { request0 with mix := [(3, 1), (1, -1 / 2), (7, -1 / 4)] },
    rfl, rfl, rfl, by decide +kernel, ?_⟩
  have : (preMix numQ ⟨fun n => if n = 7 then some 2 else some 1, fun _ _ => false⟩ { request0 with mix := [(3, 1), (1, -1 / 2), (7, -1 / 4)] }).lines[2]? =
      some (compLine numQ 1 (-1 / 4)) := by decide +kernel
  rw [this]
  exact parse_comp numQ_ok (by simp [IntOk]) _

end Verif.Mms
