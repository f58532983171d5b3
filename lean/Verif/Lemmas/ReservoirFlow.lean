import Verif.Lemmas.Reservoir
import Verif.Lemmas.Topmod
/-
Lemmas for C104: how a step splits its water.
-/
namespace Verif.Reservoir
open Verif.Topmod (acfs)

theorem column_eq (f : Vol → Rat) (vs : List Vol) : column f vs = sumOf f vs := rfl

theorem vol_eq (p : Par) (x : Rat) : p.vol x = metres p x := by simp only [Par.vol, metres, million]; ring

theorem vol_inch (p : Par) (x : Rat) : p.vol (x * inch2m) = inches p x := by
  simp only [Par.vol, inches, million, inch2m]; ring

theorem vol_nonneg (p : Par) (h : p.Ok) (x : Rat) (hx : 0 ≤ x) : 0 ≤ p.vol x := by
  have := h.area
  unfold Par.vol million
  positivity

theorem vol_zero (p : Par) : p.vol 0 = 0 := by simp [Par.vol]

theorem covden_eq (p : Par) (i : In) : covden p i = cover p i.transp := rfl

theorem covden_range (p : Par) (h : p.Ok) (i : In) : 0 ≤ covden p i ∧ covden p i ≤ 1 := by
  unfold covden
  split
  · exact h.sum
  · exact h.win

theorem fall_nonneg (p : Par) (h : p.Ok) (i : In) (hi : i.Ok p) :
    0 ≤ (fall p i).ppt ∧ 0 ≤ (fall p i).well ∧ 0 ≤ (fall p i).div ∧ 0 ≤ (fall p i).ext := by
  obtain ⟨a, b, c, d⟩ := hi.falling
  have k : (0 : Rat) ≤ inch2m := by unfold inch2m; norm_num
  have v := fun x (hx : 0 ≤ x) => vol_nonneg p h (x * inch2m) (mul_nonneg hx k)
  unfold fall
  refine ⟨v _ a, ?_, ?_, ?_⟩ <;> dsimp only <;> split
  · exact v _ b
  · exact le_refl _
  · exact v _ c
  · exact le_refl _
  · exact v _ d
  · exact le_refl _

theorem fall_total (p : Par) (i : In) (hi : i.Ok p) : (fall p i).total = inches p i.dep := by
  rw [hi.dep]
  unfold Fall.total fall inches Par.vol inch2m million
  cases p.internal <;> cases p.external <;> simp <;> ring

theorem litre_eq (x : Rat) (h : x = 0 ∨ 1 / 1000 ≤ x) : litre x = x := by
  unfold litre
  rcases h with h | h
  · subst h; simp
  · rw [if_neg]
    rw [abs_of_nonneg (le_trans (by norm_num) h)]
    exact not_lt.2 h

theorem through_eq (p : Par) (i : In) : through p i = inches p (i.netDep - i.dep * (1 - cover p i.transp)) := by
  unfold through
  rw [vol_inch, covden_eq]

theorem thruf_eq (p : Par) (i : In) (hi : i.Ok p) : thruf p i = through p i := by
  unfold thruf
  apply litre_eq
  rw [through_eq]
  exact hi.litre

theorem thruf_nonneg (p : Par) (i : In) (hi : i.Ok p) : 0 ≤ thruf p i := by
  rw [thruf_eq p i hi, through_eq]
  rcases hi.litre with h | h
  · rw [h]
  · exact le_trans (by norm_num) h

/-- The water that passes the canopy and its gaps. -/
theorem net_eq (p : Par) (i : In) (hi : i.Ok p) :
    (fall p i).total * (1 - covden p i) + thruf p i = inches p i.netDep := by
  rw [fall_total p i hi, thruf_eq p i hi, through_eq, covden_eq]
  unfold inches
  ring

theorem snowfrac_range (p : Par) (s : Start) (i : In) (x : Rat) (hx : x = s.snow) (hp : p.Ok) (hi : i.Ok p) (hk : i.Pack p s) :
    (1 - snowfrac i x) * inches p i.netDep = inches p i.psoil ∧ 0 ≤ 1 - snowfrac i x := by
  obtain ⟨a, b, c⟩ := hi.net
  unfold snowfrac
  split
  · rename_i h
    rw [h.2, hk.bare h.2]
    exact ⟨by simp [inches], by norm_num⟩
  · split
    · rename_i h
      have : i.netDep ≠ 0 := ne_of_gt h
      constructor
      · unfold inches; field_simp; ring
      · have : 0 ≤ i.psoil / i.netDep := by positivity
        linarith
    · have h : i.netDep = 0 := by
        rename_i h1 h2
        exact le_antisymm (not_lt.1 h2) a
      rw [h, hk.bare h]
      exact ⟨by simp [inches], by norm_num⟩

/-- What reaches the ground. -/
theorem ground_total (p : Par) (s : Start) (i : In) (hp : p.Ok) (hi : i.Ok p) (hk : i.Pack p s) :
    (ground p i (snowfrac i s.snow)).total = inches p (i.snowmelt + i.psoil) := by
  have h1 := net_eq p i hi
  have h2 := (snowfrac_range p s i _ rfl hp hi hk).1
  rw [← h1] at h2
  have h3 : inches p (i.snowmelt + i.psoil) = inches p i.snowmelt + inches p i.psoil := by unfold inches; ring
  rw [h3, ← h2]
  simp only [Ground.total, ground, vol_inch, Fall.total]
  ring

theorem ground_nonneg (p : Par) (s : Start) (i : In) (hp : p.Ok) (hi : i.Ok p) (hk : i.Pack p s) :
    0 ≤ (ground p i (snowfrac i s.snow)).ppt ∧ 0 ≤ (ground p i (snowfrac i s.snow)).well ∧
    0 ≤ (ground p i (snowfrac i s.snow)).div ∧ 0 ≤ (ground p i (snowfrac i s.snow)).ext ∧
    0 ≤ (ground p i (snowfrac i s.snow)).can ∧ 0 ≤ (ground p i (snowfrac i s.snow)).melt := by
  obtain ⟨a, b, c, d⟩ := fall_nonneg p hp i hi
  have h1 := (snowfrac_range p s i _ rfl hp hi hk).2
  have h2 := (covden_range p hp i).2
  have h3 : 0 ≤ 1 - covden p i := by linarith
  have h4 := thruf_nonneg p i hi
  have h5 : (0 : Rat) ≤ inch2m := by unfold inch2m; norm_num
  simp only [ground]
  refine ⟨by positivity, by positivity, by positivity, by positivity, by positivity, ?_⟩
  exact vol_nonneg p hp _ (mul_nonneg hi.net.2.2 h5)

theorem zipWith_sum_mul {α β : Type} (f g : α → β → Rat) (c : Rat) (as : List α) (bs : List β)
    (h : ∀ a ∈ as, ∀ b ∈ bs, f a b = c * g a b) : (List.zipWith f as bs).sum = c * (List.zipWith g as bs).sum := by
  induction as generalizing bs with
  | nil => simp
  | cons a as ih =>
    cases bs with
    | nil => simp
    | cons b bs =>
      simp only [List.zipWith_cons_cons, List.sum_cons]
      rw [ih bs fun a ha b hb => h a (by simp [ha]) b (by simp [hb]), h a (by simp) b (by simp)]
      ring

theorem zipWith_sum_nonneg {α β : Type} (f : α → β → Rat) (as : List α) (bs : List β)
    (h : ∀ a ∈ as, ∀ b ∈ bs, 0 ≤ f a b) : 0 ≤ (List.zipWith f as bs).sum := by
  induction as generalizing bs with
  | nil => simp
  | cons a as ih =>
    cases bs with
    | nil => simp
    | cons b bs =>
      simp only [List.zipWith_cons_cons, List.sum_cons]
      exact add_nonneg (h a (by simp) b (by simp)) (ih bs fun a ha b hb => h a (by simp [ha]) b (by simp [hb]))

/-- Sums over the bins. -/
theorem bins_sum (p : Par) (was : Bool) (i : In) (g : Ground) (t : Rat) (xs : List Rat) (hi : i.bins.length = p.ac.length)
    (hx : xs.length = p.ac.length) (f : BinOut → Rat) (f' : Rat → BinIn → Rat)
    (h : ∀ a b x, f (bin p was i g t a b x) = f' a b) :
    sumOf f (bins p was i g t xs) = (List.zipWith f' (acfs p.ac) i.bins).sum := by
  have hl := Topmod.acfs_length p.ac
  rw [← hi] at hl
  rw [← hi] at hx
  unfold bins
  generalize acfs p.ac = as at hl ⊢
  generalize i.bins = bs at hl hx ⊢
  induction as generalizing bs xs with
  | nil => simp [sumOf]
  | cons a as ih =>
    cases bs with
    | nil => simp [sumOf]
    | cons b bs =>
      cases xs with
      | nil => simp at hx
      | cons x xs =>
        simp only [List.length_cons, Nat.add_right_cancel_iff] at hl hx
        simp only [List.zip_cons_cons, List.zipWith_cons_cons, sumOf_cons, List.sum_cons]
        rw [ih xs bs hl hx, h]

/-- What is infiltrated, as a volume. -/
theorem infil_sum (p : Par) (i : In) :
    (List.zipWith (fun a (b : BinIn) => b.infil * (a * p.area * million)) (acfs p.ac) i.bins).sum =
      p.vol (overBins p i (·.infil)) := by
  unfold overBins Par.vol
  rw [zipWith_sum_mul _ (fun a (b : BinIn) => a * b.infil) (p.area * million)]
  · ring
  · intro a _ b _; ring

theorem acf_nonneg (p : Par) (h : p.Ok) (a : Rat) (ha : a ∈ acfs p.ac) : 0 ≤ a * p.area * million := by
  have h1 := Topmod.acfs_nonneg p.ac h.ac a ha
  have h2 := h.area
  unfold million
  positivity

/-- The share of each bin of a component of the water at the ground. -/
def share (p : Par) (g : Ground) (x a : Rat) (b : BinIn) : Rat :=
  if b.infil * (a * p.area * million) > 0 ∧ g.total > 0 then b.infil * (a * p.area * million) * x / g.total else 0

theorem share_sum (p : Par) (hp : p.Ok) (i : In) (hi : i.Ok p) (g : Ground) (hg : 0 < g.total) (x : Rat) :
    (List.zipWith (share p g x) (acfs p.ac) i.bins).sum = x / g.total * p.vol (overBins p i (·.infil)) := by
  rw [← infil_sum]
  apply zipWith_sum_mul
  intro a ha b hb
  have h1 := acf_nonneg p hp a ha
  have h2 := hi.flows.2.2 b hb
  unfold share
  split
  · field_simp
  · rename_i h
    have : ¬ b.infil * (a * p.area * million) > 0 := fun h' => h ⟨h', hg⟩
    have : b.infil * (a * p.area * million) = 0 := le_antisymm (not_lt.1 this) (mul_nonneg h2 h1)
    rw [this]; ring

theorem share_zero (p : Par) (i : In) (g : Ground) (hg : g.total = 0) (x : Rat) :
    (List.zipWith (share p g x) (acfs p.ac) i.bins).sum = 0 := by
  rw [zipWith_sum_mul _ (fun _ _ => 0) 0]
  · simp
  · intro a _ b _
    unfold share
    rw [if_neg (by rw [hg]; simp)]
    simp

/-- The part of the water at the ground that runs off. -/
def runoff (i : In) : Rat := if i.qof > 0 then i.qof / (i.snowmelt + i.psoil) / inch2m else 0

/-- Overland flow, infiltration and bypass take all of each component. -/
theorem split_all (p : Par) (hp : p.Ok) (i : In) (hi : i.Ok p) (s : Start) (hk : i.Pack p s) (b : Rat)
    (hb : bypass p i (ground p i (snowfrac i s.snow)) = some b) (x : Rat) (hx : 0 ≤ x)
    (hx' : x ≤ (ground p i (snowfrac i s.snow)).total) :
    x * runoff i + (List.zipWith (share p (ground p i (snowfrac i s.snow)) x) (acfs p.ac) i.bins).sum + x * b = x := by
  have ht := ground_total p s i hp hi hk
  generalize ground p i (snowfrac i s.snow) = g at hb hx' ht ⊢
  have hin : 0 ≤ overBins p i (·.infil) := by
    apply zipWith_sum_nonneg
    intro a ha b hb
    exact mul_nonneg (Topmod.acfs_nonneg p.ac hp.ac a ha) (hi.flows.2.2 b hb)
  have hsoil := hi.soil
  obtain ⟨hq, hv, -⟩ := hi.flows
  have hA := hp.area
  rcases lt_or_eq_of_le (le_trans hx hx') with hg | hg
  · rw [share_sum p hp i hi g hg]
    have hW : 0 < i.snowmelt + i.psoil := by
      rw [ht] at hg
      unfold inches at hg
      by_contra hn
      have : (i.snowmelt + i.psoil) * (254 / 10000) * (p.area * 1000000) ≤ 0 := by
        have : i.snowmelt + i.psoil ≤ 0 := not_lt.1 hn
        have h3 : (i.snowmelt + i.psoil) * (254 / 10000) ≤ 0 := by linarith
        exact mul_nonpos_of_nonpos_of_nonneg h3 (by positivity)
      linarith
    have e1 : x * runoff i = x / g.total * p.vol i.qof := by
      unfold runoff
      split
      · rw [ht]; unfold inches Par.vol inch2m million; field_simp
      · have : i.qof = 0 := le_antisymm (not_lt.1 ‹_›) hq
        rw [this, vol_zero]; ring
    have e2 : x * b = x / g.total * p.vol i.qvpref := by
      unfold bypass at hb
      dsimp only at hb
      split at hb
      · split at hb
        · exact absurd hb (by simp)
        · rename_i hn
          rw [not_or] at hn
          obtain ⟨n1, n2⟩ := hn
          rw [← Option.some.inj hb]
          field_simp
      · have : i.qvpref = 0 := le_antisymm (not_lt.1 ‹_›) hv
        rw [this, vol_zero, ← Option.some.inj hb]; ring
    rw [e1, e2]
    have e3 : p.vol i.qof + p.vol (overBins p i (·.infil)) + p.vol i.qvpref = g.total := by
      rw [ht]
      have : p.vol i.qof + p.vol (overBins p i (·.infil)) + p.vol i.qvpref =
        p.vol (i.qof + overBins p i (·.infil) + i.qvpref) := by unfold Par.vol; ring
      rw [this, ← hsoil]
      unfold inches Par.vol million; ring
    rw [← mul_add, ← mul_add, e3]
    field_simp
  · have hx0 : x = 0 := by linarith
    rw [hx0, share_zero p i g hg.symm]
    ring

theorem le_total (g : Ground) (h : 0 ≤ g.ppt ∧ 0 ≤ g.well ∧ 0 ≤ g.div ∧ 0 ≤ g.ext ∧ 0 ≤ g.can ∧ 0 ≤ g.melt) :
    g.ppt ≤ g.total ∧ g.well ≤ g.total ∧ g.div ≤ g.total ∧ g.ext ≤ g.total ∧ g.can ≤ g.total ∧ g.melt ≤ g.total := by
  obtain ⟨a, b, c, d, e, f⟩ := h
  unfold Ground.total
  refine ⟨?_, ?_, ?_, ?_, ?_, ?_⟩ <;> linarith

/-- The O-horizon takes its part of each component, and the leaves. -/
theorem ohorizon_cols (p : Par) (was : Bool) (i : In) (g : Ground) (x : Rat) (v : Vol) (h : ohorizon p was i g x = some v) :
    v.ppt = g.ppt * runoff i ∧ v.well = g.well * runoff i ∧ v.div = g.div * runoff i ∧ v.ext = g.ext * runoff i ∧
      v.can = (if leavesOff was i then p.leaf else 0) + g.can * runoff i ∧ v.melt = g.melt * runoff i ∧
      v.out = (if leavesOn was i then p.leaf else 0) + g.total * runoff i := by
  unfold ohorizon at h
  unfold runoff
  dsimp only at h
  by_cases hq : i.qof > 0
  · rw [if_pos hq] at h ⊢
    split at h
    · exact absurd h (by simp)
    · simp only [Option.some.injEq] at h
      subst h
      refine ⟨rfl, rfl, rfl, rfl, rfl, rfl, ?_⟩
      simp only [Ground.total]; ring
  · rw [if_neg hq] at h ⊢
    simp only [Option.some.injEq] at h
    subst h
    simp

/-- The snowpack takes its part of each component. -/
theorem snow_cols (p : Par) (s : Start) (i : In) (hp : p.Ok) (hi : i.Ok p) (hk : i.Pack p s) :
    (snow p i s.snow).ppt = (fall p i).ppt * (1 - covden p i) * snowfrac i s.snow ∧
    (snow p i s.snow).well = (fall p i).well * (1 - covden p i) * snowfrac i s.snow ∧
    (snow p i s.snow).div = (fall p i).div * (1 - covden p i) * snowfrac i s.snow ∧
    (snow p i s.snow).ext = (fall p i).ext * (1 - covden p i) * snowfrac i s.snow ∧
    (snow p i s.snow).can = thruf p i * snowfrac i s.snow ∧ (snow p i s.snow).out = inches p i.snowmelt ∧
    (snow p i s.snow).Balanced := by
  have hnet := net_eq p i hi
  have hfr := snowfrac_range p s i _ rfl hp hi hk
  have hb := hk.balance
  have hA := hp.area
  by_cases h : s.snow = 0 ∧ i.netDep = 0
  · have hs : snowfrac i s.snow = 0 := by unfold snowfrac; rw [if_pos h]
    have hm : i.snowmelt = 0 := by
      rw [h.1, h.2, hk.bare h.2] at hb
      have : i.pkwater + i.snowmelt + i.snowEvap = 0 := by
        unfold inches at hb
        have h2 : (i.pkwater + i.snowmelt + i.snowEvap) * (254 / 10000 * (p.area * 1000000)) = 0 := by linarith
        rcases mul_eq_zero.1 h2 with h3 | h3
        · exact h3
        · exact absurd h3 (by positivity)
      have := hk.nonneg.1
      have := hk.nonneg.2
      have := hi.net.2.2
      linarith
    unfold snow
    rw [if_pos h, hs, hm]
    simp [inches, Vol.Balanced, h.1]
  · have e : snow p i s.snow = _ := if_neg h
    rw [e]
    refine ⟨rfl, rfl, rfl, rfl, rfl, vol_inch _ _, ?_⟩
    simp only [Vol.Balanced, vol_inch]
    rw [hb]
    have e1 : (fall p i).ppt * (1 - covden p i) * snowfrac i s.snow + (fall p i).well * (1 - covden p i) * snowfrac i s.snow +
        (fall p i).div * (1 - covden p i) * snowfrac i s.snow + (fall p i).ext * (1 - covden p i) * snowfrac i s.snow +
        thruf p i * snowfrac i s.snow = inches p i.netDep - inches p i.psoil := by
      rw [← hfr.1, ← hnet]; unfold Fall.total; ring
    rw [e1]
    unfold inches; ring

theorem column_bins (p : Par) (was : Bool) (i : In) (g : Ground) (t : Rat) (xs : List Rat) (hi : i.bins.length = p.ac.length)
    (hx : xs.length = p.ac.length) (f : Vol → Rat) (f' : Rat → BinIn → Rat)
    (h : ∀ a b x, f (bin p was i g t a b x).vol = f' a b) :
    column f ((bins p was i g t xs).map (·.vol)) = (List.zipWith f' (acfs p.ac) i.bins).sum := by
  rw [column_eq, sumOf_map]
  exact bins_sum p was i g t xs hi hx _ f' h

theorem rate_nonneg (was : Bool) (i : In) : 0 ≤ rate was i := by
  unfold rate
  split
  · norm_num
  · split <;> norm_num

/-- Transpiration from the bins is what the canopy takes up. -/
theorem toCan_sum (p : Par) (hp : p.Ok) (s : Start) (i : In) (hi : i.Ok p) (g : Ground) (xs : List Rat)
    (hx : xs.length = p.ac.length) (y : Rat) :
    sumOf (·.toCan) (bins p s.transp i g (canopy p s.transp i y).uz xs) = (canopy p s.transp i y).uz := by
  rw [bins_sum p s.transp i g _ xs hi.bins hx _ (fun a b => if (canopy p s.transp i y).uz > 0 then
    rate s.transp i * b.sae * covden p i * (a * p.area * million) else 0) fun a b x => rfl]
  by_cases h : (canopy p s.transp i y).uz > 0
  · rw [zipWith_sum_mul _ (fun a (b : BinIn) => a * b.sae) (rate s.transp i * covden p i * p.area * million)]
    · have e : (List.zipWith (fun a (b : BinIn) => a * b.sae) (acfs p.ac) i.bins).sum = i.sae := hi.evap.1.symm
      rw [e]
      have : (canopy p s.transp i y).uz = p.vol (i.sae * rate s.transp i * covden p i) := by
        simp only [canopy] at h ⊢
        split at h
        · rename_i h'; rw [if_pos h']
        · exact absurd h (by simp)
      rw [this]
      unfold Par.vol; ring
    · intro a _ b _
      rw [if_pos h]; ring
  · rw [zipWith_sum_mul _ (fun _ _ => 0) 0]
    · have h0 : 0 ≤ (canopy p s.transp i y).uz := by
        simp only [canopy]
        split
        · apply vol_nonneg p hp
          exact mul_nonneg (mul_nonneg hi.evap.2.1 (rate_nonneg _ _)) (covden_range p hp i).1
        · exact le_refl _
      rw [zero_mul]
      exact le_antisymm h0 (not_lt.1 h)
    · intro a _ b _
      rw [if_neg h]; ring

theorem leaf_nonneg (p : Par) (hp : p.Ok) (was : Bool) (i : In) :
    (if leavesOff was i then p.leaf else 0) = 0 ∨ 1 / 1000 ≤ (if leavesOff was i then p.leaf else 0) := by
  split
  · unfold Par.leaf
    rw [vol_eq]
    exact hp.leaf
  · exact Or.inl rfl

theorem canopy_out (p : Par) (hp : p.Ok) (was : Bool) (i : In) (hi : i.Ok p) (y : Rat) :
    (canopy p was i y).out = thruf p i + if leavesOff was i then p.leaf else 0 := by
  have h1 := leaf_nonneg p hp was i
  have h2 := hi.litre
  rw [← through_eq] at h2
  have h3 : litre (through p i + if leavesOff was i then p.leaf else 0) =
      through p i + if leavesOff was i then p.leaf else 0 := by
    apply litre_eq
    rcases h1 with h1 | h1 <;> rcases h2 with h2 | h2
    · left; linarith
    · right; linarith
    · right; linarith
    · right; linarith
  have h4 : 0 ≤ through p i + if leavesOff was i then p.leaf else 0 := by
    rcases h1 with h1 | h1 <;> rcases h2 with h2 | h2 <;> linarith
  simp only [canopy]
  rw [h3, if_neg (not_lt.2 h4), thruf_eq p i hi]

/-- A step hands on all its water. -/
theorem step_closed (p : Par) (hp : p.Ok) (s : Start) (i : In) (hi : i.Ok p) (hk : i.Pack p s)
    (hx : s.uz.length = p.ac.length) (r : Rows) (e : Extra) (h : step p s i = some (r, e)) :
    r.Closed (metres p i.gwLoss) ∧ r.snow.Balanced := by
  obtain ⟨oh, b, h1, h2, e1, e2, e3, r1, r2, r3, r4, r5, r6, r7, r8, r9, r10, r11, r12, r13⟩ := step_eq p s i r e h
  have hs := split_all p hp i hi s hk b h2
  have hg := ground_nonneg p s i hp hi hk
  have hl := le_total _ hg
  have hG : ground p i (snowfrac i s.snow) = ground p i (snowfrac i s.snow) := rfl
  obtain ⟨o1, o2, o3, o4, o5, o6, o7⟩ := ohorizon_cols _ _ _ _ _ _ h1
  obtain ⟨s1, s2, s3, s4, s5, s6, s7⟩ := snow_cols p s i hp hi hk
  have hcol := column_bins p s.transp i (ground p i (snowfrac i s.snow)) (canopy p s.transp i s.can).uz s.uz hi.bins hx
  have hcan := toCan_sum p hp s i hi (ground p i (snowfrac i s.snow)) s.uz hx s.can
  have c1 := canopy_out p hp s.transp i hi s.can
  have huz : r.uz = (bins p s.transp i (ground p i (snowfrac i s.snow)) (canopy p s.transp i s.can).uz s.uz).map (·.vol) := by
    rw [r5, e1]
  refine ⟨⟨?_, ?_, ?_, ?_, ?_, ?_, ?_, ?_, ?_, ?_, ?_, ?_, ?_, ?_⟩, ?_⟩
  · have := hs _ hg.1 hl.1
    rw [huz, hcol (·.ppt) (share p (ground p i (snowfrac i s.snow)) (ground p i (snowfrac i s.snow)).ppt) fun _ _ _ => rfl,
      r2, r3, r4, r10, r13, s1, o1]
    have e : (canopy p s.transp i s.can).ppt = (fall p i).ppt * covden p i := rfl
    have e' : (ground p i (snowfrac i s.snow)).ppt = (fall p i).ppt * (1 - covden p i) * (1 - snowfrac i s.snow) := rfl
    simp only [satRow, mruRow]
    rw [e]; linarith
  · have := hs _ hg.2.1 hl.2.1
    rw [huz, hcol (·.well) (share p (ground p i (snowfrac i s.snow)) (ground p i (snowfrac i s.snow)).well) fun _ _ _ => rfl,
      r2, r3, r4, r10, r13, s2, o2]
    have e : (canopy p s.transp i s.can).well = (fall p i).well * covden p i := rfl
    have e' : (ground p i (snowfrac i s.snow)).well = (fall p i).well * (1 - covden p i) * (1 - snowfrac i s.snow) := rfl
    simp only [satRow, mruRow]
    rw [e]; linarith
  · have := hs _ hg.2.2.1 hl.2.2.1
    rw [huz, hcol (·.div) (share p (ground p i (snowfrac i s.snow)) (ground p i (snowfrac i s.snow)).div) fun _ _ _ => rfl,
      r2, r3, r4, r10, r13, s3, o3]
    have e : (canopy p s.transp i s.can).div = (fall p i).div * covden p i := rfl
    have e' : (ground p i (snowfrac i s.snow)).div = (fall p i).div * (1 - covden p i) * (1 - snowfrac i s.snow) := rfl
    simp only [satRow, mruRow]
    rw [e]; linarith
  · have := hs _ hg.2.2.2.1 hl.2.2.2.1
    rw [huz, hcol (·.ext) (share p (ground p i (snowfrac i s.snow)) (ground p i (snowfrac i s.snow)).ext) fun _ _ _ => rfl,
      r2, r3, r4, r10, r13, s4, o4]
    have e : (canopy p s.transp i s.can).ext = (fall p i).ext * covden p i := rfl
    have e' : (ground p i (snowfrac i s.snow)).ext = (fall p i).ext * (1 - covden p i) * (1 - snowfrac i s.snow) := rfl
    simp only [satRow, mruRow]
    rw [e]; linarith
  · have := hs _ hg.2.2.2.2.1 hl.2.2.2.2.1
    rw [huz, hcol (·.can) (share p (ground p i (snowfrac i s.snow)) (ground p i (snowfrac i s.snow)).can) fun _ _ _ => rfl,
      r2, r3, r4, r10, s5, o5, c1]
    have e' : (ground p i (snowfrac i s.snow)).can = thruf p i * (1 - snowfrac i s.snow) := rfl
    simp only [satRow]
    linarith
  · have := hs _ hg.2.2.2.2.2 hl.2.2.2.2.2
    rw [huz, hcol (·.melt) (share p (ground p i (snowfrac i s.snow)) (ground p i (snowfrac i s.snow)).melt) fun _ _ _ => rfl,
      r3, r4, r10, s6, o6]
    have e' : (ground p i (snowfrac i s.snow)).melt = inches p i.snowmelt := vol_inch _ _
    simp only [satRow]
    linarith
  · rw [r12, r4]
    simp only [hillRow]; ring
  · have hu : column (·.out) r.uz = sumOf (fun o : BinOut => o.toCan + (o.toSat + o.toQdf)) e.bins := by
      rw [column_eq, r5, sumOf_map]
      apply sumOf_congr
      intro o ho
      rw [e1] at ho
      obtain ⟨j, hj⟩ := List.mem_iff_getElem?.1 ho
      obtain ⟨a, bb, x, -, -, -, rfl⟩ := bins_getElem _ _ _ _ _ _ j o hj
      simp only [bin]; ring
    rw [hu, sumOf_add, sumOf_add, r2, r9, r10]
    simp only [qdfRow, satRow]
    rw [e1, hcan]; ring
  · rw [r12, r9]
    simp only [hillRow]
  · rw [r12, r11]
    simp only [hillRow]
  · rw [r10, r11, r12, r13]
    simp only [satRow, satprefRow, hillRow, mruRow]
    rw [column_eq, r5, sumOf_map, ← vol_eq]
  · rw [r13]; exact ⟨rfl, rfl⟩
  · rw [r13, ← vol_eq]; rfl
  · rw [r13]; rfl
  · rw [r3]; exact s7

/-- The water of the unit changes as its row says. -/
theorem closed_stored (s : Start) (r : Rows) (loss : Rat) (hc : r.Closed loss)
    (hrow : ∀ q v, r.row q = some v → v.Summed ∧ s.vol q = some v.init ∧ r.next.vol q = some v.fin ∧ v.Balanced)
    (hu : r.mru.inp = r.mru.ppt + r.mru.well + r.mru.div + r.mru.ext + r.mru.gw1 + r.mru.gw2)
    (hlen : s.uz.length = r.uz.length) (hplain : ∀ v ∈ r.uz, Plain v)
    (zc : r.can.inp = r.can.ppt + r.can.well + r.can.div + r.can.ext + r.can.ohoriz + r.can.uz)
    (zs : r.snow.inp = r.snow.ppt + r.snow.well + r.snow.div + r.snow.ext + r.snow.can)
    (zo : r.ohoriz.inp = r.ohoriz.ppt + r.ohoriz.well + r.ohoriz.div + r.ohoriz.ext + r.ohoriz.can + r.ohoriz.melt)
    (zq : r.qdf.fin = s.qdf) (zo' : r.ohoriz.et = 0) (zt : r.sat.et = 0) (zqs : r.qdf.uz = r.qdf.out)
    (zsp : r.satpref.sat = r.satpref.out)
    (zt' : r.sat.inp = r.sat.ppt + r.sat.well + r.sat.div + r.sat.ext + r.sat.can + r.sat.melt + r.sat.uz + r.sat.gw1 + r.sat.gw2)
    (zh : r.hill.out = r.hill.ohoriz + r.hill.qdf + r.hill.sat + r.hill.satpref) :
    r.mru.fin - s.mru = r.next.stored - s.stored := by
  obtain ⟨-, a1, -, a3⟩ := hrow .can _ rfl
  obtain ⟨-, b1, -, b3⟩ := hrow .snow _ rfl
  obtain ⟨-, c1, -, c3⟩ := hrow .ohoriz _ rfl
  obtain ⟨-, d1, -, d3⟩ := hrow .sat _ rfl
  obtain ⟨-, m1, -, m3⟩ := hrow .mru _ rfl
  simp only [Start.vol, Option.some.injEq] at a1 b1 c1 d1 m1
  have huz : s.uz = r.uz.map (·.init) := by
    apply List.ext_getElem?
    intro j
    rw [List.getElem?_map]
    cases h : r.uz[j]? with
    | some v => exact (hrow (.uz j) v h).2.1
    | none =>
      rw [List.getElem?_eq_none_iff] at h
      rw [Option.map_none, List.getElem?_eq_none_iff]
      omega
  have hfin : column (·.fin) r.uz = column (·.init) r.uz + column (·.inp) r.uz - column (·.out) r.uz - column (·.et) r.uz := by
    simp only [column_eq]
    generalize r.uz = l at hplain
    clear * - hplain
    induction l with
    | nil => simp [sumOf_nil]
    | cons v vs ih =>
      simp only [sumOf_cons]
      have := (hplain v (by simp)).2
      have := ih fun w hw => hplain w (by simp [hw])
      unfold Vol.Balanced at *
      linarith
  have hinp : column (·.inp) r.uz = column (·.ppt) r.uz + column (·.can) r.uz + column (·.melt) r.uz + column (·.sat) r.uz +
      column (·.well) r.uz + column (·.div) r.uz + column (·.ext) r.uz := by
    simp only [column_eq]
    rw [sumOf_congr _ _ r.uz fun v hv => (hplain v hv).1]
    simp only [sumOf_add]
  have hs : s.uz.sum = column (·.init) r.uz := by rw [huz]; rfl
  have hn : r.next.stored = r.can.fin + r.snow.fin + r.ohoriz.fin + column (·.fin) r.uz + r.qdf.fin + r.sat.fin := rfl
  rw [hn]
  unfold Start.stored
  unfold Vol.Balanced at a3 b3 c3 d3 m3
  obtain ⟨k1, k2, k3, k4, k5, k6, k7, k8, k9, k10, k11, k12, k13, k14⟩ := hc
  linarith [k12.1, k12.2]

theorem step_stored (p : Par) (hp : p.Ok) (s : Start) (i : In) (hi : i.Ok p) (hk : i.Pack p s)
    (hx : s.uz.length = p.ac.length) (r : Rows) (e : Extra) (h : step p s i = some (r, e)) :
    r.mru.fin - s.mru = r.next.stored - s.stored := by
  obtain ⟨hc, hsn⟩ := step_closed p hp s i hi hk hx r e h
  have hrow := step_rows p s i r e h
  obtain ⟨oh, b, h1, h2, e1, e2, e3, r1, r2, r3, r4, r5, r6, r7, r8, r9, r10, r11, r12, r13⟩ := step_eq p s i r e h
  have hlen : r.uz.length = p.ac.length := by
    rw [r5, e1]; unfold bins
    simp [List.length_zipWith, Topmod.acfs_length, hi.bins, hx]
  apply closed_stored s r (metres p i.gwLoss) hc
  · intro q v hv
    obtain ⟨a, b, c, d⟩ := hrow q v hv
    refine ⟨a, b, c, ?_⟩
    by_cases hq : q = .snow
    · subst hq
      simp only [Rows.row, Option.some.injEq] at hv
      rw [← hv]; exact hsn
    · exact d hq
  · rw [r13]; simp only [mruRow, Fall.total]; ring
  · rw [hlen, hx]
  · intro v hv
    rw [r5] at hv
    obtain ⟨o, ho, rfl⟩ := List.mem_map.1 hv
    rw [e1] at ho
    exact (bins_row _ _ _ _ _ _ o ho).1
  · rw [r2]; simp only [canopy]
  · rw [r3]
    unfold snow
    split
    · simp
    · rfl
  · rw [r4]
    obtain ⟨-, q, -, -⟩ := ohorizon_row _ _ _ _ _ _ h1
    have z : oh.imp = 0 ∧ oh.ohoriz = 0 ∧ oh.uz = 0 ∧ oh.qdf = 0 ∧ oh.sat = 0 ∧ oh.exf = 0 ∧ oh.satpref = 0 ∧ oh.hill = 0 ∧
        oh.gw1 = 0 ∧ oh.gw2 = 0 := by
      unfold ohorizon at h1
      dsimp only at h1
      split at h1
      · split at h1
        · exact absurd h1 (by simp)
        · rw [← Option.some.inj h1]; simp
      · rw [← Option.some.inj h1]; simp
    obtain ⟨z1, z2, z3, z4, z5, z6, z7, z8, z9, z10⟩ := z
    unfold Vol.Summed Vol.sources at q
    linarith
  · rw [r9]; exact (qdf_row _ _).2.2.2
  · rw [r4]; exact (ohorizon_row _ _ _ _ _ _ h1).2.2.2
  · rw [r10]; rfl
  · rw [r9]; rfl
  · rw [r11]; rfl
  · rw [r10]; simp only [satRow]
  · rw [r12]; simp only [hillRow]; ring

end Verif.Reservoir
