import Verif.Spec.Chem
import Mathlib.Tactic.SplitIfs
import Mathlib.Tactic.Linarith
import Mathlib.Tactic.Ring
import Mathlib.Algebra.Order.Field.Rat
namespace Verif.Chem

theorem addAll_apply (as : List Acc) (h : as.Nodup) (f : Fld) (v : Rat) (t : Table) (b : Acc) (g : Fld) :
    addAll as f v t b g = t b g + if b ∈ as ∧ g = f then v else 0 := by
  induction as generalizing t with
  | nil => simp [addAll]
  | cons a l ih =>
    have hl : l.Nodup := (List.nodup_cons.mp h).2
    have ha : a ∉ l := (List.nodup_cons.mp h).1
    have : addAll (a :: l) f v t = addAll l f v (add t a f v) := rfl
    rw [this, ih hl]
    unfold add
    by_cases hg : g = f
    · by_cases hb : b = a
      · subst hb
        simp [hg, ha]
      · simp [hg, hb]
    · simp [hg]

theorem addAll_nil (f : Fld) (v : Rat) (t : Table) : addAll [] f v t = t := rfl

theorem foldl_key {κ : Type} [DecidableEq κ] (key : Fld → Option κ) (S : Table → κ → Table)
    (hloc : ∀ t k a f, key f ≠ some k → S t k a f = t a f)
    (hcong : ∀ t t' k, (∀ a f, key f = some k → t a f = t' a f) → ∀ a f, key f = some k → S t k a f = S t' k a f)
    (l : List κ) (hl : l.Nodup) (t : Table) (a : Acc) (f : Fld) :
    l.foldl S t a f = match key f with
      | some k => if k ∈ l then S t k a f else t a f
      | none => t a f := by
  induction l generalizing t with
  | nil => cases key f <;> simp
  | cons k l ih =>
    have hk : k ∉ l := (List.nodup_cons.mp hl).1
    rw [List.foldl_cons, ih (List.nodup_cons.mp hl).2]
    cases hf : key f with
    | none => simp only; exact hloc t k a f (by rw [hf]; simp)
    | some m =>
      simp only
      by_cases hm : m ∈ l
      · have hne : m ≠ k := fun e => hk (e ▸ hm)
        rw [if_pos hm, if_pos (List.mem_cons_of_mem _ hm)]
        exact hcong _ _ m (fun a f h => hloc t k a f (by rw [h]; simp [hne])) a f hf
      · rw [if_neg hm]
        by_cases he : m = k
        · subst he; simp
        · rw [if_neg (by simp [he, hm])]
          exact hloc t k a f (by rw [hf]; simp [he])

/-- The solute of a component. -/
def soluteOf : Fld → Option Nat
  | .mol n _ => some n
  | .delta n _ => some n
  | .rxn n _ => some n
  | .elem n => some n
  | _ => none

theorem uzAccs_nodup (x : Ctx) (c : Call) : (uzAccs x c).Nodup := by
  unfold uzAccs; split_ifs <;> simp

theorem volAccs_nodup (x : Ctx) (c : Call) : (volAccs x c).Nodup := by
  unfold volAccs uzAccs; split_ifs <;> simp

theorem molAccs_eq (x : Ctx) (c : Call) : molAccs x c = volAccs x c := by
  unfold volAccs molAccs
  have : ((c.stream = true ∧ ¬ c.react = true) ∨ x.ih = 1) ↔ (x.ih = 1 ∨ (c.stream = true ∧ ¬ c.react = true)) := Or.comm
  simp only [this]

theorem rxnAccs_nodup (x : Ctx) (c : Call) : (Acc.basin :: rxnAccs x c).Nodup := by
  unfold rxnAccs uzAccs; split_ifs <;> simp

theorem hillAccs_nodup (x : Ctx) (c : Call) : (hillAccs x c).Nodup := by
  unfold hillAccs uzAccs; split_ifs <;> simp

theorem solutes_nodup (x : Ctx) : (solutes x).Nodup := List.nodup_range'
theorem cols_nodup (x : Ctx) : (cols x).Nodup := List.nodup_range'

theorem mem_solutes (x : Ctx) (n : Nat) : n ∈ solutes x ↔ isSolute x n = true := by
  unfold solutes isSolute; simp [List.mem_range'_1]; omega

theorem mem_cols (x : Ctx) (j : Nat) : j ∈ cols x ↔ 3 ≤ j ∧ j ≤ x.ncols := by
  unfold cols; simp [List.mem_range'_1]; omega

/-- Membership of the composites. -/
theorem mem_volAccs (x : Ctx) (c : Call) (a : Acc) (h : c.restype = 99 ∧ c.react = false ∨ c.restype ≠ 99 ∧ x.ih ≠ 1) :
    a ∈ volAccs x c ↔ concerns x c a = true ∧ ∀ r, a ≠ .res r := by
  have hs : (x.ih = 1 ∨ (c.stream = true ∧ ¬ c.react = true)) ↔ c.restype = 99 := by
    unfold Call.stream
    rcases h with ⟨h1, h2⟩ | ⟨h1, h2⟩ <;> simp [h1, h2]
  have hu : c.unsat = true ↔ c.restype = 5 := by
    unfold Call.unsat Call.mru; simp; omega
  unfold volAccs uzAccs
  simp only [hs, hu, List.mem_append]
  cases a <;> simp [concerns] <;> split_ifs <;> simp_all

theorem own_or_comp (x : Ctx) (c : Call) (a : Acc)
    (h : c.restype = 99 ∧ c.react = false ∨ c.restype ≠ 99 ∧ x.ih ≠ 1) :
    (a = .res c.row ∧ a ∉ volAccs x c ∧ concerns x c a = true) ∨ (a ≠ .res c.row ∧ a ∈ volAccs x c ∧ concerns x c a = true) ∨
      (a ≠ .res c.row ∧ a ∉ volAccs x c ∧ concerns x c a = false) := by
  simp only [mem_volAccs x c a h]
  cases hc : concerns x c a
  · right; right
    refine ⟨?_, by simp, rfl⟩
    rintro rfl; simp [concerns] at hc
  · cases a <;> simp
    simpa [concerns] using hc

/-- One solute of an input or output. -/
theorem solute_flow (x : Ctx) (c : Call) (im : Nat) (him : im = 2 ∨ im = 3) (t : Table) (n : Nat) (a : Acc) (f : Fld)
    (h : c.restype = 99 ∧ c.react = false ∨ c.restype ≠ 99 ∧ x.ih ≠ 1) :
    solute x c im c.totvol t n a f = t a f + if concerns x c a = true then
      (if f = .mol n im then c.conc n * c.totvol * 1000 else if f = .delta n im ∧ x.iso n = true then c.totvol * c.dconc n else 0)
      else 0 := by
  have hmol : ownMol c im c.totvol n t =
      (add t (.res c.row) (.mol n im) (c.conc n * c.totvol * 1000), c.conc n * c.totvol * 1000) := by
    unfold ownMol
    have hst : c.stream = true ↔ c.restype = 99 := by unfold Call.stream; simp
    rcases h with ⟨h1, h2⟩ | ⟨h1, h2⟩
    · rcases him with rfl | rfl
      · simp
      · simp [hst.mpr h1, h2]
    · rcases him with rfl | rfl
      · simp
      · simp [hst, h1]
  have hdel : ∀ t' : Table, ownDelta c im c.totvol n t' = add t' (.res c.row) (.delta n im) (c.dconc n * c.totvol) := by
    intro t'
    unfold ownDelta
    have : ¬ (c.stream = true ∧ c.react = true) := by
      unfold Call.stream; rcases h with ⟨h1, h2⟩ | ⟨h1, h2⟩ <;> simp [h1, h2]
    simp only [if_neg this]
  have hc := own_or_comp x c a h
  unfold solute
  rw [hmol]
  simp only [hdel, molAccs_eq]
  by_cases hi : x.iso n = true
  · simp only [hi, if_true, and_true]
    rw [addAll_apply _ (volAccs_nodup x c), addAll_apply _ (volAccs_nodup x c)]
    unfold add
    by_cases hf : f = .mol n im
    · subst hf
      rcases hc with ⟨rfl, h2, h3⟩ | ⟨h1, h2, h3⟩ | ⟨h1, h2, h3⟩
      · simp [h2, h3]
      · simp [h1, h2, h3]
      · simp [h1, h2, h3]
    · by_cases hd : f = .delta n im
      · subst hd
        rcases hc with ⟨rfl, h2, h3⟩ | ⟨h1, h2, h3⟩ | ⟨h1, h2, h3⟩
        · simp [h2, h3]; ring
        · simp [h1, h2, h3]
        · simp [h1, h2, h3]
      · simp [hf, hd]
  · simp only [hi, Bool.false_eq_true, if_false, and_false]
    rw [addAll_apply _ (volAccs_nodup x c)]
    unfold add
    by_cases hf : f = .mol n im
    · subst hf
      rcases hc with ⟨rfl, h2, h3⟩ | ⟨h1, h2, h3⟩ | ⟨h1, h2, h3⟩
      · simp [h2, h3]
      · simp [h1, h2, h3]
      · simp [h1, h2, h3]
    · simp [hf]

theorem solutes_flow (x : Ctx) (c : Call) (im : Nat) (him : im = 2 ∨ im = 3) (t : Table) (a : Acc) (f : Fld)
    (h : c.restype = 99 ∧ c.react = false ∨ c.restype ≠ 99 ∧ x.ih ≠ 1) :
    (solutes x).foldl (solute x c im c.totvol) t a f = t a f + if concerns x c a = true then
      (match f with
        | .mol n s => if s = im ∧ isSolute x n = true then c.conc n * c.totvol * 1000 else 0
        | .delta n s => if s = im ∧ isSolute x n = true ∧ x.iso n = true then c.totvol * c.dconc n else 0
        | _ => 0) else 0 := by
  rw [foldl_key soluteOf]
  · cases f <;> simp only [soluteOf, solute_flow x c im him _ _ _ _ h, mem_solutes] <;> simp
    · rename_i n s
      by_cases h1 : isSolute x n = true <;> by_cases h2 : s = im <;> simp [h1, h2]
    · rename_i n s
      by_cases h1 : isSolute x n = true <;> by_cases h2 : s = im <;> simp [h1, h2]
  · intro t k a f hk
    rw [solute_flow x c im him _ _ _ _ h]
    have h1 : f ≠ .mol k im := by rintro rfl; exact hk rfl
    have h2 : f ≠ .delta k im := by rintro rfl; exact hk rfl
    simp [h1, h2]
  · intro t t' k he a f hk
    rw [solute_flow x c im him _ _ _ _ h, solute_flow x c im him _ _ _ _ h, he a f hk]
  · exact solutes_nodup x

theorem compVol_apply (x : Ctx) (c : Call) (im : Nat) (vol : Rat) (t : Table) (a : Acc) (f : Fld) :
    compVol x c im vol t a f = t a f + if a ∈ volAccs x c then
      (if f = .vol im then vol else if f = .temp im then vol * c.tempc else if f = .pH im then vol * c.pH else 0) else 0 := by
  unfold compVol
  simp only [addAll_apply _ (volAccs_nodup x c)]
  cases f <;> simp <;> split_ifs <;> simp_all

/-- The first part of an input or output. -/
theorem flow_first (x : Ctx) (c : Call) (im : Nat) (him : im = 2 ∨ im = 3) (t : Table) (a : Acc) (f : Fld)
    (h : c.restype = 99 ∧ c.react = false ∨ c.restype ≠ 99 ∧ x.ih ≠ 1) :
    (solutes x).foldl (solute x c im c.totvol) (compVol x c im c.totvol (ownVol c im c.totvol t)) a f =
      t a f + if concerns x c a = true then amount x c im f else 0 := by
  rw [solutes_flow x c im him _ _ _ h, compVol_apply]
  have hc := own_or_comp x c a h
  have hown : ownVol c im c.totvol t = add (add (add t (.res c.row) (.vol im) c.totvol) (.res c.row) (.temp im)
      (c.tempc * c.totvol)) (.res c.row) (.pH im) (c.pH * c.totvol) := by
    unfold ownVol; rw [if_pos]; omega
  rw [hown]
  unfold add amount
  cases f with
  | vol s =>
    by_cases hs : s = im
    · subst hs
      rcases hc with ⟨rfl, h2, h3⟩ | ⟨h1, h2, h3⟩ | ⟨h1, h2, h3⟩
      · simp [h2, h3]
      · simp [h1, h2, h3]
      · simp [h1, h2, h3]
    · simp [hs]
  | temp s =>
    by_cases hs : s = im
    · subst hs
      rcases hc with ⟨rfl, h2, h3⟩ | ⟨h1, h2, h3⟩ | ⟨h1, h2, h3⟩
      · simp [h2, h3]; ring
      · simp [h1, h2, h3]
      · simp [h1, h2, h3]
    · simp [hs]
  | pH s =>
    by_cases hs : s = im
    · subst hs
      rcases hc with ⟨rfl, h2, h3⟩ | ⟨h1, h2, h3⟩ | ⟨h1, h2, h3⟩
      · simp [h2, h3]; ring
      · simp [h1, h2, h3]
      · simp [h1, h2, h3]
    · simp [hs]
  | mol n s =>
    simp
    split_ifs <;> first | rfl | (simp_all; done) | (simp_all; ring)
  | delta n s => simp
  | rxn n j => simp
  | elem n => simp
  | mass j => simp
  | massDiff j => simp

theorem Flow.facts {x : Ctx} {c : Call} (h : Flow x c) :
    (c.restype = 99 ∧ c.react = false ∨ c.restype ≠ 99 ∧ x.ih ≠ 1) := by
  rcases h.outside with h1 | h1
  · exact Or.inl ⟨h1, h.still⟩
  · by_cases h2 : c.restype = 99
    · exact Or.inl ⟨h2, h.still⟩
    · exact Or.inr ⟨h2, h1⟩

theorem updateChem_flow (x : Ctx) (c : Call) (t : Table) (h : Flow x c) :
    ∃ t', updateChem x c t = some t' ∧ ∀ a f, t' a f = t a f + if concerns x c a = true then amount x c c.slot f else 0 := by
  have him : c.im = c.slot ∧ (c.slot = 2 ∨ c.slot = 3) := by
    unfold Call.im Call.slot
    rcases h.metric with hm | hm | hm <;> simp [hm]
  unfold updateChem
  have h1 : ¬ (c.im < 1 ∨ c.im > 5) := by rw [him.1]; omega
  have h2 : c.im.toNat = c.slot := by rw [him.1]; simp
  rw [if_neg h1]
  simp only [h2, h.still]
  have h3 : ¬ c.slot = 1 := by omega
  have h4 : callVol c c.slot t = c.totvol := by unfold callVol; rw [if_pos]; omega
  simp only [h3, h4, if_false, Bool.false_eq_true]
  exact ⟨_, rfl, fun a f => flow_first x c c.slot him.2 t a f h.facts⟩

/-- The column of a component of solute `n`. -/
def colOf (n : Nat) : Fld → Option Nat
  | .rxn m j => if m = n then some j else none
  | _ => none

theorem entity_apply (x : Ctx) (c : Call) (vol : Rat) (n : Nat) (t : Table) (j : Nat) (a : Acc) (f : Fld) :
    entity x c vol n t j a f = if f = .rxn n j then
      (if a = .res c.row then c.ent n j * x.mult j * vol * 1000
       else t a f + if a ∈ Acc.basin :: rxnAccs x c then c.ent n j * x.mult j * vol * 1000 else 0)
      else t a f := by
  unfold entity
  rw [addAll_apply _ (rxnAccs_nodup x c)]
  unfold put
  have hres : Acc.res c.row ∉ Acc.basin :: rxnAccs x c := by
    unfold rxnAccs uzAccs; split_ifs <;> simp
  by_cases hf : f = .rxn n j
  · subst hf
    by_cases ha : a = .res c.row
    · subst ha; simp only [hres, false_and, if_false, true_and, and_true, if_true, add_zero]
    · simp only [ha, and_true, if_true, if_false, false_and]
  · simp [hf]

theorem entities_apply (x : Ctx) (c : Call) (vol : Rat) (n : Nat) (t : Table) (a : Acc) (f : Fld) :
    (cols x).foldl (entity x c vol n) t a f = match f with
      | .rxn m j => if m = n ∧ 3 ≤ j ∧ j ≤ x.ncols then
          (if a = .res c.row then c.ent n j * x.mult j * vol * 1000
           else t a f + if a ∈ Acc.basin :: rxnAccs x c then c.ent n j * x.mult j * vol * 1000 else 0)
        else t a f
      | _ => t a f := by
  rw [foldl_key (colOf n)]
  · cases f with
    | rxn m j =>
      simp only [colOf]
      by_cases hm : m = n
      · subst hm
        simp only [if_true, true_and, mem_cols, entity_apply]
      · simp only [hm, false_and, if_false]
    | _ => rfl
  · intro t k a f hk
    rw [entity_apply, if_neg]
    rintro rfl; exact hk (by simp [colOf])
  · intro t t' k he a f hk
    rw [entity_apply, entity_apply, he a f hk]
  · exact cols_nodup x

/-- The moles of solute `n` produced, of which `t` holds those of isotopes. -/
def produced (x : Ctx) (c : Call) (vol : Rat) (t : Table) (n : Nat) : Rat :=
  if x.iso n then t (.res c.row) (.mol n 4) else c.tal n * vol * 1000 - c.conc n * vol * 1000

def fraction (x : Ctx) (c : Call) (vol : Rat) (t : Table) (n : Nat) : Rat :=
  if (if x.iso n then 0 else elemSum x c vol n) > 0 then produced x c vol t n / (if x.iso n then 0 else elemSum x c vol n) else 0

theorem mem_rxnAccs (x : Ctx) (c : Call) (a : Acc) (hk : 0 < c.restype ∧ c.restype < 10) :
    a ∈ Acc.basin :: rxnAccs x c ↔ partOf x c a = true := by
  have hm : c.mru = true := by unfold Call.mru; simp [hk.1, hk.2]
  have hs : ¬ c.stream = true := by unfold Call.stream; simp; omega
  have hu : c.unsat = true ↔ c.restype = 5 := by
    unfold Call.unsat Call.mru; simp; omega
  unfold rxnAccs uzAccs
  simp only [hm, hs, hu, if_true, Bool.false_eq_true, if_false]
  cases a <;> simp [partOf] <;> split_ifs <;> simp_all

theorem mem_hillAccs (x : Ctx) (c : Call) (a : Acc) :
    a ∈ hillAccs x c ↔ partOf x c a = true := by
  have hu : c.unsat = true ↔ c.restype = 5 := by
    unfold Call.unsat Call.mru; simp; omega
  unfold hillAccs uzAccs
  simp only [hu]
  cases a <;> simp [partOf] <;> split_ifs <;> simp_all

theorem partOf_res (x : Ctx) (c : Call) (r : Int) : partOf x c (.res r) = false := rfl

theorem reaction_apply (x : Ctx) (c : Call) (vol : Rat) (t : Table) (n : Nat) (a : Acc) (f : Fld)
    (hk : 0 < c.restype ∧ c.restype < 10) (hih : x.ih ≠ 1) :
    reaction x c vol t n a f = match f with
      | .mol m s =>
        if m = n ∧ s = 5 then
          (if a = .res c.row then c.tal n * vol * 1000 else t a f + if partOf x c a = true then c.tal n * vol * 1000 else 0)
        else if m = n ∧ s = 4 then
          (if a = .res c.row then produced x c vol t n else t a f + if partOf x c a = true then produced x c vol t n else 0)
        else t a f
      | .delta m s =>
        if m = n ∧ s = 5 ∧ x.iso n = true then
          (if a = .res c.row then c.dconc n * vol else t a f + if partOf x c a = true then c.dconc n * vol else 0)
        else t a f
      | .rxn m j => if m = n ∧ x.iso n = false ∧ 3 ≤ j ∧ j ≤ x.ncols then
          (if a = .res c.row then c.ent n j * x.mult j * vol * 1000
           else t a f + if partOf x c a = true then c.ent n j * x.mult j * vol * 1000 else 0)
        else t a f
      | .elem m => if m = n then
          (if a = .res c.row then fraction x c vol t n
           else t a f + if partOf x c a = true then fraction x c vol t n * vol else 0)
        else t a f
      | _ => t a f := by
  have hn := rxnAccs_nodup x c
  have hn' : (rxnAccs x c).Nodup := (List.nodup_cons.mp hn).2
  have hb : Acc.basin ∉ rxnAccs x c := (List.nodup_cons.mp hn).1
  have hs : c.stream = false := by unfold Call.stream; simp; omega
  have hm : c.mru = true := by unfold Call.mru; simp [hk.1, hk.2]
  have hd : (Acc.basin :: ((if c.stream = true then [Acc.hyd] else []) ++ if c.mru = true then Acc.mru x.is :: uzAccs x c else []))
      = Acc.basin :: rxnAccs x c := by
    unfold rxnAccs; simp [hs]
  have hr : ∀ b, b ∈ rxnAccs x c ↔ partOf x c b = true ∧ b ≠ .basin := by
    intro b
    have := mem_rxnAccs x c b hk
    constructor
    · intro h; exact ⟨this.mp (List.mem_cons_of_mem _ h), fun e => hb (e ▸ h)⟩
    · rintro ⟨h1, h2⟩
      rcases List.mem_cons.mp (this.mpr h1) with h | h
      · exact absurd h h2
      · exact h
  have hbas : partOf x c .basin = true := rfl
  have hrow : partOf x c (.res c.row) = false := rfl
  unfold reaction
  simp only [hd, if_pos hih]
  rw [addAll_apply _ hn]
  simp only [mem_rxnAccs x c _ hk]
  cases hi : x.iso n with
  | true =>
    cases f with
    | mol m s =>
      simp only [put, add, addAll_apply _ hn, addAll_apply _ hn', hr, produced, hi, mem_rxnAccs x c _ hk]
      by_cases hmn : m = n
      · subst hmn
        by_cases h5 : s = 5
        · subst h5
          by_cases ha : a = .res c.row
          · subst ha; simp [put, add, addAll_apply _ hn', addAll_apply _ hn, hr, hrow]
          · by_cases hab : a = .basin
            · subst hab; simp [put, add, addAll_apply _ hn', addAll_apply _ hn, hr, hbas]
            · simp [put, add, addAll_apply _ hn', addAll_apply _ hn, hr, ha, hab]
        · by_cases h4 : s = 4
          · subst h4
            by_cases ha : a = .res c.row
            · subst ha; simp [put, add, addAll_apply _ hn', addAll_apply _ hn, hr, hrow]
            · by_cases hab : a = .basin
              · subst hab; simp [put, add, addAll_apply _ hn', addAll_apply _ hn, hr, hbas]
              · simp [put, add, addAll_apply _ hn', addAll_apply _ hn, hr, ha, hab]
          · simp [put, add, addAll_apply _ hn', addAll_apply _ hn, h5, h4]
      · simp [put, add, addAll_apply _ hn', addAll_apply _ hn, hmn]
    | delta m s =>
      simp only [put, add, addAll_apply _ hn, addAll_apply _ hn', hr, produced, hi, mem_rxnAccs x c _ hk]
      by_cases hmn : m = n ∧ s = 5
      · obtain ⟨rfl, rfl⟩ := hmn
        by_cases ha : a = .res c.row
        · subst ha; simp [put, add, addAll_apply _ hn', addAll_apply _ hn, hr, hrow]
        · simp [put, add, addAll_apply _ hn', mem_rxnAccs x c _ hk, addAll_apply _ hn, ha, -List.mem_cons]
      · have : ¬ (Fld.delta m s = Fld.delta n 5) := by simpa using hmn
        simp [put, add, addAll_apply _ hn', addAll_apply _ hn, this]
        intro h1 h2; exact absurd ⟨h1, h2⟩ hmn
    | elem m =>
      simp only [put, add, addAll_apply _ hn, addAll_apply _ hn', hr, produced, fraction, hi, mem_rxnAccs x c _ hk]
      by_cases hmn : m = n
      · subst hmn
        by_cases ha : a = .res c.row
        · subst ha; simp [put, add, addAll_apply _ hn', addAll_apply _ hn, hr, hrow]
        · simp [put, add, addAll_apply _ hn', mem_rxnAccs x c _ hk, addAll_apply _ hn, ha, -List.mem_cons]
      · simp [put, add, addAll_apply _ hn', addAll_apply _ hn, hmn]
    | _ => simp [put, add, addAll_apply _ hn, addAll_apply _ hn']
  | false =>
    cases f with
    | mol m s =>
      simp only [put, add, addAll_apply _ hn, addAll_apply _ hn', hr, produced, hi, mem_rxnAccs x c _ hk, entities_apply]
      by_cases hmn : m = n
      · subst hmn
        by_cases h5 : s = 5
        · subst h5
          by_cases ha : a = .res c.row
          · subst ha; simp [put, entities_apply, add, addAll_apply _ hn', hr, hrow]
          · by_cases hab : a = .basin
            · subst hab; simp [put, entities_apply, add, addAll_apply _ hn', hr, hbas]
            · simp [put, entities_apply, add, addAll_apply _ hn', hr, ha, hab]
        · by_cases h4 : s = 4
          · subst h4
            by_cases ha : a = .res c.row
            · subst ha; simp [put, entities_apply, add, addAll_apply _ hn', hr, hrow]
            · by_cases hab : a = .basin
              · subst hab; simp [put, entities_apply, add, addAll_apply _ hn', hr, hbas]
              · simp [put, entities_apply, add, addAll_apply _ hn', hr, ha, hab]
          · simp [put, entities_apply, add, addAll_apply _ hn', h5, h4]
      · simp [put, entities_apply, add, addAll_apply _ hn', hmn]
    | delta m s =>
      simp [put, entities_apply, add, addAll_apply _ hn']
    | rxn m j =>
      simp only [put, entities_apply]
      by_cases hmn : m = n ∧ 3 ≤ j ∧ j ≤ x.ncols
      · simp [put, entities_apply, hmn, mem_rxnAccs x c _ hk, add, addAll_apply _ hn', -List.mem_cons]
      · simp [put, entities_apply, hmn, add, addAll_apply _ hn', -List.mem_cons]
    | elem m =>
      by_cases hmn : m = n
      · subst hmn
        by_cases ha : a = .res c.row
        · subst ha; simp [put, fraction, produced, hi, hrow]
        · simp [put, fraction, produced, hi, ha, entities_apply, add, addAll_apply _ hn']
      · simp [put, hmn, entities_apply, add, addAll_apply _ hn']
    | _ => simp [put, add, entities_apply, addAll_apply _ hn']

theorem reactions_apply (x : Ctx) (c : Call) (vol : Rat) (t : Table) (a : Acc) (f : Fld)
    (hk : 0 < c.restype ∧ c.restype < 10) (hih : x.ih ≠ 1) :
    (solutes x).foldl (reaction x c vol) t a f = match soluteOf f with
      | some n => if isSolute x n = true then reaction x c vol t n a f else t a f
      | none => t a f := by
  rw [foldl_key soluteOf]
  · cases soluteOf f with
    | none => rfl
    | some n => simp only [mem_solutes]
  · intro t k a f hf
    rw [reaction_apply x c vol t k a f hk hih]
    cases f <;> simp only [soluteOf] at hf ⊢ <;> simp only [ne_eq, Option.some.injEq, reduceCtorEq, not_false_eq_true] at hf <;>
      simp [hf]
  · intro t t' k he a f hf
    rw [reaction_apply x c vol t k a f hk hih, reaction_apply x c vol t' k a f hk hih]
    have h4 : t (.res c.row) (.mol k 4) = t' (.res c.row) (.mol k 4) := he _ _ rfl
    have hp : produced x c vol t k = produced x c vol t' k := by unfold produced; rw [h4]
    have hfr : fraction x c vol t k = fraction x c vol t' k := by unfold fraction; rw [hp]
    rw [he a f hf, hp, hfr]
  · exact solutes_nodup x

/-- The component of an entity's mass. -/
def massOf : Fld → Option Nat
  | .mass j => some j
  | .massDiff j => some j
  | _ => none

theorem massSteps_apply (x : Ctx) (c : Call) (t : Table) (a : Acc) (f : Fld) :
    (cols x).foldl (massStep c) t a f = match f with
      | .mass j => if a = .res c.row ∧ 3 ≤ j ∧ j ≤ x.ncols then c.last j else t a f
      | .massDiff j => if a = .res c.row ∧ 3 ≤ j ∧ j ≤ x.ncols then t (.res c.row) (.mass j) - c.last j else t a f
      | _ => t a f := by
  rw [foldl_key massOf]
  · cases f <;> simp only [massOf, mem_cols, massStep, put]
    · split_ifs <;> simp_all
    · split_ifs <;> simp_all
  · intro t k a f hf
    cases f <;> simp [massOf, massStep, put] at hf ⊢ <;> simp [hf]
  · intro t t' k he a f hf
    have hm : t (.res c.row) (.mass k) = t' (.res c.row) (.mass k) := he _ _ rfl
    simp only [massStep, put, he a f hf, hm]
  · exact cols_nodup x

/-- The first part of a reaction of a reservoir of a hillslope. -/
theorem react_first (x : Ctx) (c : Call) (t : Table) (h : Reacts x c) (a : Acc) (f : Fld)
    (hf : a ≠ .res c.row ∨ f.slot ≠ some 5 ∨ f = .vol 5) :
    (solutes x).foldl (solute x c c.im.toNat (callVol c c.im.toNat t))
      (compVol x c c.im.toNat (callVol c c.im.toNat t) (ownVol c c.im.toNat (callVol c c.im.toNat t) t)) a f =
      t a f + contribution x c a f := by
  have hk := h.kind
  have h99 : c.restype ≠ 99 := by omega
  rcases h.metric with hm | ⟨hm, h5⟩
  · have h1 : c.im.toNat = 3 := by unfold Call.im; simp [hm]
    have h2 : callVol c 3 t = c.totvol := by unfold callVol; simp
    rw [h1, h2, flow_first x c 3 (Or.inr rfl) t a f (Or.inr ⟨h99, h.hill⟩)]
    unfold contribution Call.slot
    simp [hm]
  · have h1 : c.im.toNat = 5 := by unfold Call.im; simp [hm]
    have hv : volAccs x c = [] := by
      unfold volAccs uzAccs
      have hs : c.stream = false := by unfold Call.stream; simp [h99]
      have hu : c.unsat = false := by unfold Call.unsat; simp [h5]
      simp [h.inside.1, h.inside.2, hs, hu, h.hill]
    have hs : c.stream = false := by unfold Call.stream; simp [h99]
    have hc : contribution x c a f = 0 := by unfold contribution; simp [hm]
    rw [h1, hc, add_zero]
    generalize callVol c 5 t = V
    have hsol : ∀ (t : Table) (n : Nat) (a : Acc) (f : Fld), solute x c 5 V t n a f =
        if a = .res c.row ∧ f = .mol n 5 then c.tal n * V * 1000
        else if a = .res c.row ∧ f = .delta n 5 ∧ x.iso n = true then t a f + c.dconc n * V else t a f := by
      intro t n a f
      unfold solute ownMol ownDelta
      simp only [molAccs_eq, hv, addAll_nil, hs]
      cases hi : x.iso n <;> simp [add, put]
      split_ifs <;> simp_all
    rw [foldl_key soluteOf]
    · have hown : compVol x c 5 V (ownVol c 5 V t) = put (put t (.res c.row) (.temp 5) c.tempc) (.res c.row) (.pH 5) c.pH := by
        unfold compVol ownVol; rw [hv]; simp [addAll_nil]
      rw [hown]
      cases f <;> simp only [soluteOf, hsol] <;> simp [put, Fld.slot] at hf ⊢ <;>
        intros <;> rcases hf with hf | hf <;> contradiction
    · intro t k a f hf
      rw [hsol]
      have h1 : f ≠ .mol k 5 := by rintro rfl; exact hf rfl
      have h2 : f ≠ .delta k 5 := by rintro rfl; exact hf rfl
      simp [h1, h2]
    · intro t t' k he a f hf
      rw [hsol, hsol, he a f hf]
    · exact solutes_nodup x

/-- What a reaction adds to the composites, besides outputs. -/
def gain (x : Ctx) (c : Call) (t : Table) : Fld → Rat
  | .vol s => if s = 5 then t (.res c.row) (.vol 5) else if s = 4 then t (.res c.row) (.vol 4) else 0
  | .temp s => if s = 5 then (if c.metric = 3 then c.totvol else t (.res c.row) (.vol 5)) * c.tempc else 0
  | .pH s => if s = 5 then (if c.metric = 3 then c.totvol else t (.res c.row) (.vol 5)) * c.pH else 0
  | .mol n s => if isSolute x n then
      (if s = 5 then c.tal n * t (.res c.row) (.vol 5) * 1000 else if s = 4 then produced x c (t (.res c.row) (.vol 5)) t n else 0)
      else 0
  | .delta n s => if isSolute x n ∧ s = 5 ∧ x.iso n then c.dconc n * t (.res c.row) (.vol 5) else 0
  | .rxn n j => if isSolute x n ∧ x.iso n = false ∧ 3 ≤ j ∧ j ≤ x.ncols then
      c.ent n j * x.mult j * t (.res c.row) (.vol 5) * 1000 else 0
  | .elem n => if isSolute x n then fraction x c (t (.res c.row) (.vol 5)) t n * t (.res c.row) (.vol 5) else 0
  | _ => 0

theorem rxnVol_hill (x : Ctx) (c : Call) (im : Nat) (vol : Rat) (t : Table) (hs : c.stream = false) (a : Acc) (f : Fld) :
    (rxnVol x c im vol t).2 = t (.res c.row) (.vol 5) ∧
    (rxnVol x c im vol t).1 a f = t a f + if partOf x c a = true then
      (if f = .vol 5 then t (.res c.row) (.vol 5) else if f = .vol 4 then t (.res c.row) (.vol 4)
       else if f = .temp 5 then vol * c.tempc else if f = .pH 5 then vol * c.pH else 0) else 0 := by
  unfold rxnVol
  simp only [hs, Bool.false_eq_true, if_false]
  have hn := hillAccs_nodup x c
  have hn' : (hillAccs x c).tail.Nodup := (List.nodup_cons.mp hn).2
  have hb : Acc.basin ∉ (hillAccs x c).tail := (List.nodup_cons.mp hn).1
  have ht : ∀ b, b ∈ (hillAccs x c).tail ↔ partOf x c b = true ∧ b ≠ .basin := by
    intro b
    rw [← mem_hillAccs]
    constructor
    · intro h; exact ⟨List.mem_of_mem_tail h, fun e => hb (e ▸ h)⟩
    · rintro ⟨h1, h2⟩
      rcases List.mem_cons.mp h1 with h | h
      · exact absurd h h2
      · exact h
  refine ⟨trivial, ?_⟩
  simp only [addAll_apply _ hn, addAll_apply _ hn', mem_hillAccs, ht, add]
  by_cases hab : a = .basin
  · subst hab
    have : partOf x c .basin = true := rfl
    cases f <;> simp [this] <;> split_ifs <;> simp_all
  · cases f <;> simp [hab] <;> split_ifs <;> simp_all

theorem updateChem_react (x : Ctx) (c : Call) (t : Table) (h : Reacts x c) :
    ∃ t', updateChem x c t = some t' ∧
      (∀ a f, a ≠ .res c.row → t' a f = t a f + contribution x c a f + if partOf x c a = true then gain x c t f else 0) ∧
      (∀ f s, f.slot = some s → s ≠ 4 → s ≠ 5 → t' (.res c.row) f = t (.res c.row) f + contribution x c (.res c.row) f) ∧
      (∀ s, s = 4 ∨ s = 5 → t' (.res c.row) (.vol s) = t (.res c.row) (.vol s)) ∧
      (∀ n, isSolute x n = true → t' (.res c.row) (.mol n 5) = c.tal n * t (.res c.row) (.vol 5) * 1000 ∧
        t' (.res c.row) (.mol n 4) = produced x c (t (.res c.row) (.vol 5)) t n ∧
        t' (.res c.row) (.elem n) = fraction x c (t (.res c.row) (.vol 5)) t n ∧
        (x.iso n = true → t' (.res c.row) (.delta n 5) = c.dconc n * t (.res c.row) (.vol 5)) ∧
        (x.iso n = false → ∀ j, 3 ≤ j → j ≤ x.ncols →
          t' (.res c.row) (.rxn n j) = c.ent n j * x.mult j * t (.res c.row) (.vol 5) * 1000)) ∧
      (∀ j, 3 ≤ j → j ≤ x.ncols → t' (.res c.row) (.mass j) = c.last j ∧
        t' (.res c.row) (.massDiff j) = t (.res c.row) (.mass j) - c.last j) := by
  have hk := h.kind
  have hs : c.stream = false := by unfold Call.stream; simp; omega
  have him : ¬ (c.im < 1 ∨ c.im > 5) ∧ ¬ c.im.toNat = 1 := by
    unfold Call.im; rcases h.metric with hm | ⟨hm, _⟩ <;> simp [hm]
  have hw : callVol c c.im.toNat t = if c.metric = 3 then c.totvol else t (.res c.row) (.vol 5) := by
    unfold callVol Call.im; rcases h.metric with hm | ⟨hm, _⟩ <;> simp [hm]
  have hfirst := react_first x c t h
  unfold updateChem
  rw [if_neg him.1]
  simp only [if_neg him.2, h.react, if_true]
  generalize hT : (solutes x).foldl (solute x c c.im.toNat (callVol c c.im.toNat t))
      (compVol x c c.im.toNat (callVol c c.im.toNat t) (ownVol c c.im.toNat (callVol c c.im.toNat t) t)) = T at hfirst ⊢
  rw [hw]
  generalize hW : (if c.metric = 3 then c.totvol else t (.res c.row) (.vol 5)) = W at *
  have c0 : ∀ a f, f.slot ≠ some 2 → f.slot ≠ some 3 → contribution x c a f = 0 := by
    intro a f h2 h3
    unfold contribution amount Call.slot
    cases f <;> simp [Fld.slot] at h2 h3 ⊢ <;> intros <;> split_ifs at * <;> simp_all
  have hV : T (.res c.row) (.vol 5) = t (.res c.row) (.vol 5) := by
    rw [hfirst _ _ (Or.inr (Or.inr rfl)), c0 _ _ (by simp [Fld.slot]) (by simp [Fld.slot]), add_zero]
  have hE : T (.res c.row) (.vol 4) = t (.res c.row) (.vol 4) := by
    rw [hfirst _ _ (Or.inr (Or.inl (by simp [Fld.slot]))), c0 _ _ (by simp [Fld.slot]) (by simp [Fld.slot]), add_zero]
  have hrv := fun a f => rxnVol_hill x c c.im.toNat W T hs a f
  rw [(hrv .basin (.vol 0)).1, hV]
  generalize hR : (rxnVol x c c.im.toNat W T).1 = R at hrv ⊢
  have hR2 : ∀ a f, R a f = T a f + if partOf x c a = true then
      (if f = .vol 5 then t (.res c.row) (.vol 5) else if f = .vol 4 then t (.res c.row) (.vol 4)
       else if f = .temp 5 then W * c.tempc else if f = .pH 5 then W * c.pH else 0) else 0 := by
    intro a f; rw [(hrv a f).2, hV, hE]
  have hRres : ∀ f, R (.res c.row) f = T (.res c.row) f := by intro f; rw [hR2]; simp [partOf]
  have hM4 : ∀ n, R (.res c.row) (.mol n 4) = t (.res c.row) (.mol n 4) := by
    intro n
    rw [hRres, hfirst _ _ (Or.inr (Or.inl (by simp [Fld.slot]))), c0 _ _ (by simp [Fld.slot]) (by simp [Fld.slot]), add_zero]
  have hp : ∀ n V, produced x c V R n = produced x c V t n := by intro n V; unfold produced; rw [hM4]
  have hfr : ∀ n V, fraction x c V R n = fraction x c V t n := by intro n V; unfold fraction; rw [hp]
  refine ⟨_, rfl, ?_, ?_, ?_, ?_, ?_⟩
  · intro a f ha
    have hTa : T a f = t a f + contribution x c a f := hfirst a f (Or.inl ha)
    rw [massSteps_apply]
    cases f with
    | mass j => simp [ha, reactions_apply x c _ _ _ _ hk h.hill, soluteOf, hR2, hTa, gain]
    | massDiff j => simp [ha, reactions_apply x c _ _ _ _ hk h.hill, soluteOf, hR2, hTa, gain]
    | vol s =>
      simp only [reactions_apply x c _ _ _ _ hk h.hill, soluteOf, hR2, hTa, gain]
      simp
    | temp s =>
      simp only [reactions_apply x c _ _ _ _ hk h.hill, soluteOf, hR2, hTa, gain, hW]
      simp
    | pH s =>
      simp only [reactions_apply x c _ _ _ _ hk h.hill, soluteOf, hR2, hTa, gain, hW]
      simp
    | mol n s =>
      simp only [reactions_apply x c _ _ _ _ hk h.hill, soluteOf, reaction_apply x c _ _ _ _ _ hk h.hill, hR2, hTa, gain, hp]
      by_cases hn : isSolute x n = true <;> by_cases h5 : s = 5 <;> by_cases h4 : s = 4 <;> simp [hn, h5, h4, ha]
    | delta n s =>
      simp only [reactions_apply x c _ _ _ _ hk h.hill, soluteOf, reaction_apply x c _ _ _ _ _ hk h.hill, hR2, hTa, gain, hp]
      by_cases hn : isSolute x n = true <;> by_cases h5 : s = 5 <;> by_cases h4 : x.iso n = true <;> simp [hn, h5, h4, ha]
    | rxn n j =>
      simp only [reactions_apply x c _ _ _ _ hk h.hill, soluteOf, reaction_apply x c _ _ _ _ _ hk h.hill, hR2, hTa, gain, hp]
      by_cases hn : isSolute x n = true <;> by_cases h5 : x.iso n = false ∧ 3 ≤ j ∧ j ≤ x.ncols <;> simp [hn, h5, ha]
    | elem n =>
      simp only [reactions_apply x c _ _ _ _ hk h.hill, soluteOf, reaction_apply x c _ _ _ _ _ hk h.hill, hR2, hTa, gain, hp, hfr]
      by_cases hn : isSolute x n = true <;> simp [hn, ha]
  · intro f s hfs h4 h5
    have hTa : T (.res c.row) f = t (.res c.row) f + contribution x c (.res c.row) f :=
      hfirst _ f (Or.inr (Or.inl (by rw [hfs]; simpa using h5)))
    rw [massSteps_apply]
    cases f <;> simp only [Fld.slot, Option.some.injEq, reduceCtorEq] at hfs
    all_goals subst hfs
    all_goals simp only [reactions_apply x c _ _ _ _ hk h.hill, soluteOf, reaction_apply x c _ _ _ _ _ hk h.hill]
    all_goals simp [h4, h5, hRres, hTa]
  · intro s hs
    rw [massSteps_apply]
    simp only [reactions_apply x c _ _ _ _ hk h.hill, soluteOf, hRres]
    rcases hs with rfl | rfl
    · exact hE
    · exact hV
  · intro n hn
    refine ⟨?_, ?_, ?_, fun hi => ?_, fun hi j h3 hj => ?_⟩ <;>
    rw [massSteps_apply] <;>
    simp only [reactions_apply x c _ _ _ _ hk h.hill, soluteOf, reaction_apply x c _ _ _ _ _ hk h.hill, hn, if_true] <;>
    simp [hp, hfr]
    · simp [hi]
    · simp [hi, h3, hj]
  · intro j h3 hj
    have hm : R (.res c.row) (.mass j) = t (.res c.row) (.mass j) := by
      rw [hRres, hfirst _ _ (Or.inr (Or.inl (by simp [Fld.slot]))), c0 _ _ (by simp [Fld.slot]) (by simp [Fld.slot]), add_zero]
    constructor <;> rw [massSteps_apply] <;> simp [h3, hj]
    rw [reactions_apply x c _ _ _ _ hk h.hill]
    exact hm

/-! ### The parts of the unsaturated zone -/

def Acc.uz : Acc → Bool
  | .uzgen _ => true
  | .uzrip _ => true
  | .uzup _ => true
  | _ => false

theorem Split.add {t : Table} (h : Split t) (a : Acc) (ha : a.uz = false) (f : Fld) (v : Rat) : Split (add t a f v) := by
  intro i g
  have h1 : Acc.uzgen i ≠ a := by rintro rfl; cases ha
  have h2 : Acc.uzrip i ≠ a := by rintro rfl; cases ha
  have h3 : Acc.uzup i ≠ a := by rintro rfl; cases ha
  simp only [Chem.add, h1, h2, h3, false_and, if_false]
  exact h i g

theorem Split.put {t : Table} (h : Split t) (a : Acc) (ha : a.uz = false) (f : Fld) (v : Rat) : Split (put t a f v) := by
  intro i g
  have h1 : Acc.uzgen i ≠ a := by rintro rfl; cases ha
  have h2 : Acc.uzrip i ≠ a := by rintro rfl; cases ha
  have h3 : Acc.uzup i ≠ a := by rintro rfl; cases ha
  simp only [Chem.put, h1, h2, h3, false_and, if_false]
  exact h i g

/-- Lists that hold, with an unsaturated zone, one of its parts. -/
def Paired (as : List Acc) : Prop :=
  as.Nodup ∧ ∀ i, (Acc.uzgen i ∈ as ∧ Acc.uzrip i ∈ as ∧ Acc.uzup i ∉ as) ∨ (Acc.uzgen i ∈ as ∧ Acc.uzrip i ∉ as ∧ Acc.uzup i ∈ as) ∨
    (Acc.uzgen i ∉ as ∧ Acc.uzrip i ∉ as ∧ Acc.uzup i ∉ as)

theorem Split.addAll {t : Table} (h : Split t) (as : List Acc) (ha : Paired as) (f : Fld) (v : Rat) : Split (addAll as f v t) := by
  intro i g
  rw [addAll_apply _ ha.1, addAll_apply _ ha.1, addAll_apply _ ha.1, h i g]
  rcases ha.2 i with ⟨h1, h2, h3⟩ | ⟨h1, h2, h3⟩ | ⟨h1, h2, h3⟩ <;> simp [h1, h2, h3] <;> ring

theorem paired_uz (x : Ctx) (c : Call) (i : Nat) :
    (Acc.uzgen i ∈ uzAccs x c ∧ Acc.uzrip i ∈ uzAccs x c ∧ Acc.uzup i ∉ uzAccs x c) ∨
    (Acc.uzgen i ∈ uzAccs x c ∧ Acc.uzrip i ∉ uzAccs x c ∧ Acc.uzup i ∈ uzAccs x c) ∨
    (Acc.uzgen i ∉ uzAccs x c ∧ Acc.uzrip i ∉ uzAccs x c ∧ Acc.uzup i ∉ uzAccs x c) := by
  unfold uzAccs
  by_cases hi : i = x.is <;> split_ifs <;> simp [hi]

theorem paired_vol (x : Ctx) (c : Call) : Paired (volAccs x c) := by
  refine ⟨volAccs_nodup x c, fun i => ?_⟩
  have := paired_uz x c i
  have h : ∀ a, a.uz = true → (a ∈ volAccs x c ↔ a ∈ uzAccs x c) := by
    intro a ha
    unfold volAccs
    simp only [List.mem_append]
    cases a <;> simp [Acc.uz] at ha ⊢ <;> split_ifs <;> simp
  rwa [h _ rfl, h _ rfl, h _ rfl]

theorem paired_hill (x : Ctx) (c : Call) : Paired (hillAccs x c) := by
  refine ⟨hillAccs_nodup x c, fun i => ?_⟩
  have := paired_uz x c i
  unfold hillAccs
  simpa using this

theorem paired_hill_tail (x : Ctx) (c : Call) : Paired (hillAccs x c).tail := by
  refine ⟨(List.nodup_cons.mp (hillAccs_nodup x c)).2, fun i => ?_⟩
  have := paired_uz x c i
  unfold hillAccs
  simpa using this

theorem paired_rxn (x : Ctx) (c : Call) : Paired (rxnAccs x c) := by
  refine ⟨(List.nodup_cons.mp (rxnAccs_nodup x c)).2, fun i => ?_⟩
  have := paired_uz x c i
  unfold rxnAccs
  split_ifs <;> simp [this]

theorem Paired.cons_basin {as : List Acc} (h : Paired as) (hb : Acc.basin ∉ as) : Paired (.basin :: as) := by
  refine ⟨List.nodup_cons.mpr ⟨hb, h.1⟩, fun i => ?_⟩
  simpa using h.2 i

theorem paired_basin_rxn (x : Ctx) (c : Call) : Paired (.basin :: rxnAccs x c) :=
  (paired_rxn x c).cons_basin (List.nodup_cons.mp (rxnAccs_nodup x c)).1

theorem paired_delta (x : Ctx) (c : Call) :
    Paired (.basin :: ((if c.stream = true then [Acc.hyd] else []) ++ (if c.mru = true then .mru x.is :: uzAccs x c else []))) := by
  refine ⟨?_, fun i => ?_⟩
  · unfold uzAccs; split_ifs <;> simp
  · have := paired_uz x c i
    split_ifs <;> simp [this]

theorem Split.foldl {κ : Type} {S : Table → κ → Table} (hS : ∀ t k, Split t → Split (S t k)) (l : List κ) {t : Table} (h : Split t) :
    Split (l.foldl S t) := by
  induction l generalizing t with
  | nil => exact h
  | cons k l ih => exact ih (hS t k h)

theorem Split.ownMol {t : Table} (h : Split t) (c : Call) (im : Nat) (vol : Rat) (n : Nat) : Split (ownMol c im vol n t).1 := by
  unfold Chem.ownMol
  dsimp only
  split_ifs <;> dsimp only <;>
    first | exact h.add _ rfl _ _ | exact h.put _ rfl _ _ | exact ((h.add _ rfl _ _).put _ rfl _ _).put _ rfl _ _

theorem Split.ownDelta {t : Table} (h : Split t) (c : Call) (im : Nat) (vol : Rat) (n : Nat) : Split (ownDelta c im vol n t) := by
  unfold Chem.ownDelta
  dsimp only
  split_ifs
  · exact ((h.add _ rfl _ _).put _ rfl _ _).put _ rfl _ _
  · exact h.add _ rfl _ _

theorem Split.solute {t : Table} (h : Split t) (x : Ctx) (c : Call) (im : Nat) (vol : Rat) (n : Nat) : Split (solute x c im vol t n) := by
  unfold Chem.solute
  dsimp only
  rw [molAccs_eq]
  have h1 := h.ownMol c im vol n
  split_ifs
  · exact ((h1.ownDelta c im vol n).addAll _ (paired_vol x c) _ _).addAll _ (paired_vol x c) _ _
  · exact h1.addAll _ (paired_vol x c) _ _

theorem Split.rxnVol {t : Table} (h : Split t) (x : Ctx) (c : Call) (im : Nat) (vol : Rat) : Split (rxnVol x c im vol t).1 := by
  have hb : Paired [Acc.basin] := ⟨by simp, fun i => by simp⟩
  unfold Chem.rxnVol
  dsimp only
  split_ifs
  · exact (((((((h.add _ rfl _ _).addAll _ hb _ _).addAll _ hb _ _).addAll _ hb _ _).put _ rfl _ _).add _ rfl _ _).add _ rfl _ _)
  · exact h.add _ rfl _ _
  · exact (((((h.add _ rfl _ _).addAll _ (paired_hill x c) _ _).addAll _ (paired_hill_tail x c) _ _).addAll _ (paired_hill x c) _ _).addAll
      _ (paired_hill x c) _ _)

theorem Split.entity {t : Table} (h : Split t) (x : Ctx) (c : Call) (vol : Rat) (n j : Nat) : Split (entity x c vol n t j) :=
  (h.put _ rfl _ _).addAll _ (paired_basin_rxn x c) _ _

theorem Split.reaction {t : Table} (h : Split t) (x : Ctx) (c : Call) (vol : Rat) (n : Nat) : Split (reaction x c vol t n) := by
  unfold Chem.reaction
  dsimp only
  refine Split.addAll (Split.put ?_ _ rfl _ _) _ (paired_basin_rxn x c) _ _
  have key : ∀ {t : Table} (d : Rat), Split t →
      Split (Chem.addAll (rxnAccs x c) (.mol n 5) (c.tal n * vol * 1000) (Chem.addAll (rxnAccs x c) (.mol n 4) d
        (if x.ih ≠ 1 then Chem.add (Chem.add t .basin (.mol n 4) d) .basin (.mol n 5) (c.tal n * vol * 1000)
         else Chem.add t .basin (.mol n 4) d))) := by
    intro t d h
    refine (Split.addAll ?_ _ (paired_rxn x c) _ _).addAll _ (paired_rxn x c) _ _
    split_ifs
    · exact (h.add _ rfl _ _).add _ rfl _ _
    · exact h.add _ rfl _ _
  cases hi : x.iso n with
  | true =>
    simp only [if_true]
    exact key _ (((h.put _ rfl _ _).put _ rfl _ _).addAll _ (paired_delta x c) _ _)
  | false =>
    simp only [Bool.false_eq_true, if_false]
    refine Split.foldl (fun t k ht => ht.entity x c vol n k) _ ?_
    exact key _ (((h.put _ rfl _ _).put _ rfl _ _).put _ rfl _ _)

theorem Split.updateChem {t t' : Table} (h : Split t) (x : Ctx) (c : Call) (hu : updateChem x c t = some t') : Split t' := by
  unfold Chem.updateChem at hu
  split at hu
  · cases hu
  · dsimp only at hu
    generalize c.im.toNat = im at hu
    generalize callVol c im t = vol at hu
    have h1 : Split (compVol x c im vol (ownVol c im vol t)) := by
      unfold compVol ownVol
      refine Split.addAll (Split.addAll (Split.addAll ?_ _ (paired_vol x c) _ _) _ (paired_vol x c) _ _) _ (paired_vol x c) _ _
      split_ifs
      · exact ((h.add _ rfl _ _).add _ rfl _ _).add _ rfl _ _
      · exact (h.put _ rfl _ _).put _ rfl _ _
    have h2 := Split.foldl (S := Chem.solute x c im vol) (fun t k ht => ht.solute x c im vol k) (solutes x) h1
    have h3 : Split (if im = 1 then (cols x).foldl (fun t j => Chem.put t (.res c.row) (.mass j) (c.last j))
        ((solutes x).foldl (Chem.solute x c im vol) (compVol x c im vol (ownVol c im vol t)))
        else (solutes x).foldl (Chem.solute x c im vol) (compVol x c im vol (ownVol c im vol t))) := by
      split_ifs
      · exact Split.foldl (fun t k ht => ht.put _ rfl _ _) _ h2
      · exact h2
    generalize (if im = 1 then _ else _ : Table) = T at h3 hu
    split at hu
    · cases hu
      refine Split.foldl (fun t k ht => (ht.put _ rfl _ _).put _ rfl _ _) _ ?_
      exact Split.foldl (fun t k ht => ht.reaction x c _ k) _ (h3.rxnVol x c im vol)
    · cases hu; exact h3

theorem Split.newStep {t : Table} (h : Split t) : Split (newStep t) := by
  intro i f
  cases f <;> simp only [Chem.newStep] <;> first | exact h _ _ | (split_ifs <;> first | exact h _ _ | simp) | simp

/-! ### Groundwater -/

theorem molFold_apply (as : List Acc) (has : as.Nodup) (s : Nat) (v : Nat → Rat) (l : List Nat) (hl : l.Nodup) (t : Table) (a : Acc) (f : Fld) :
    l.foldl (fun t k => addAll as (.mol k s) (v k) t) t a f =
      t a f + match f with | .mol n s' => if s' = s ∧ n ∈ l ∧ a ∈ as then v n else 0 | _ => 0 := by
  induction l generalizing t with
  | nil => cases f <;> simp
  | cons k l ih =>
    rw [List.foldl_cons, ih (List.nodup_cons.mp hl).2, addAll_apply as has]
    have hk : k ∉ l := (List.nodup_cons.mp hl).1
    cases f with
    | mol n s' =>
      simp only [Fld.mol.injEq, List.mem_cons]
      by_cases hn : n = k
      · subst hn
        by_cases h1 : s' = s <;> by_cases h2 : a ∈ as <;> simp [hk, h1, h2]
      · simp [hn]
    | _ => simp

theorem gw_accs_nodup (x : Ctx) : ([.mru x.is, .basin] : List Acc).Nodup := by simp

theorem gwGain_apply (x : Ctx) (vol : Rat) (conc : Nat → Rat) (tempc pH : Rat) (t : Table) (a : Acc) (f : Fld) :
    gwGain x vol conc tempc pH t a f = t a f + groundwater x 2 vol conc tempc pH a f := by
  unfold gwGain groundwater
  rw [molFold_apply _ (gw_accs_nodup x) _ _ _ (solutes_nodup x)]
  simp only [addAll_apply _ (gw_accs_nodup x), mem_solutes, List.mem_cons, List.not_mem_nil, or_false]
  by_cases ha : a = .mru x.is ∨ a = .basin
  · cases f <;> simp [ha, mul_comm]
    intros; ring
  · cases f <;> simp [ha]

theorem gwLeak_apply (x : Ctx) (vol : Rat) (conc : Nat → Rat) (t : Table) (a : Acc) (f : Fld) :
    gwLeak x vol conc t a f = t a f + groundwater x 3 vol conc 0 0 a f := by
  unfold gwLeak groundwater
  rw [molFold_apply _ (gw_accs_nodup x) _ _ _ (solutes_nodup x)]
  simp only [addAll_apply _ (gw_accs_nodup x), mem_solutes, List.mem_cons, List.not_mem_nil, or_false]
  by_cases ha : a = .mru x.is ∨ a = .basin
  · cases f <;> simp [ha, mul_comm]
    intros; ring
  · cases f <;> simp [ha]

theorem groundwater_uz (x : Ctx) (s : Nat) (vol : Rat) (conc : Nat → Rat) (tempc pH : Rat) (a : Acc) (h1 : ∀ i, a ≠ .mru i) (h2 : a ≠ .basin)
    (f : Fld) : groundwater x s vol conc tempc pH a f = 0 := by
  unfold groundwater
  rw [if_neg]
  rintro (h | h)
  · exact h1 _ h
  · exact h2 h

theorem groundwater_slot (x : Ctx) (s : Nat) (vol : Rat) (conc : Nat → Rat) (tempc pH : Rat) (a : Acc) (f : Fld) (h : f.slot ≠ some s) :
    groundwater x s vol conc tempc pH a f = 0 := by
  unfold groundwater
  split_ifs
  · cases f <;> simp [Fld.slot] at h ⊢ <;> intros <;> simp_all
  · rfl

theorem Split.step {t t' : Table} (h : Split t) (e : Event) (he : step e t = some t') : Split t' := by
  cases e with
  | call x c => exact h.updateChem x c he
  | evap x row vol d m =>
    cases he
    unfold evaporate
    refine Split.foldl (fun t k ht => ht.add _ rfl _ _) _ ?_
    exact Split.foldl (fun t k ht => (ht.add _ rfl _ _).add _ rfl _ _) _ h
  | et row v => cases he; exact h.put _ rfl _ _
  | final row v => cases he; exact h.put _ rfl _ _
  | enter x vol conc tempc pH =>
    cases he
    intro i f
    simp only [gwGain_apply, groundwater_uz x _ _ _ _ _ (.uzgen i) (by simp) (by simp), groundwater_uz x _ _ _ _ _ (.uzrip i) (by simp) (by simp),
      groundwater_uz x _ _ _ _ _ (.uzup i) (by simp) (by simp), add_zero]
    exact h i f
  | leave x vol conc =>
    cases he
    intro i f
    simp only [gwLeak_apply, groundwater_uz x _ _ _ _ _ (.uzgen i) (by simp) (by simp), groundwater_uz x _ _ _ _ _ (.uzrip i) (by simp) (by simp),
      groundwater_uz x _ _ _ _ _ (.uzup i) (by simp) (by simp), add_zero]
    exact h i f
  | next => cases he; exact h.newStep

/-! ### Histories -/

/-- An evaporation leaves all but the moles and deltas of slot 4 alone. -/
theorem evaporate_apply (x : Ctx) (row : Int) (vol : Rat) (d m : Nat → Rat) (t : Table) (a : Acc) (f : Fld)
    (hf : ∀ n, x.iso n = true → f ≠ .mol n 4 ∧ f ≠ .delta n 4) : evaporate x row vol d m t a f = t a f := by
  have key : ∀ (S : Table → Nat → Table) (l : List Nat), (∀ n ∈ l, x.iso n = true) →
      (∀ t n, x.iso n = true → S t n a f = t a f) → ∀ t : Table, l.foldl S t a f = t a f := by
    intro S l hl hS
    induction l with
    | nil => intro t; rfl
    | cons n l ih =>
      intro t
      rw [List.foldl_cons, ih (fun k hk => hl k (List.mem_cons_of_mem _ hk)), hS t n (hl n List.mem_cons_self)]
  have hiso : ∀ n ∈ (solutes x).filter x.iso, x.iso n = true := fun n hn => (List.mem_filter.mp hn).2
  unfold evaporate
  rw [key _ _ hiso, key _ _ hiso]
  · intro t n hn
    have h2 := (hf n hn).2
    simp [add, h2]
  · intro t n hn
    have h1 := (hf n hn).1
    simp [add, h1]

theorem contribution_slot (x : Ctx) (c : Call) (a : Acc) (f : Fld) (h2 : f.slot ≠ some 2) (h3 : f.slot ≠ some 3) :
    contribution x c a f = 0 := by
  unfold contribution amount Call.slot
  cases f <;> simp [Fld.slot] at h2 h3 ⊢ <;> intros <;> split_ifs at * <;> simp_all

theorem gain_slot (x : Ctx) (c : Call) (t : Table) (f : Fld) (h : f.slot = some 2 ∨ f.slot = some 3) : gain x c t f = 0 := by
  cases f <;> simp only [Fld.slot, Option.some.injEq, reduceCtorEq, or_self] at h <;>
    rcases h with rfl | rfl <;> simp [gain]

/-- One event within a time step, in the slots of inputs and outputs. -/
theorem step_flow (e : Event) (he : e.Within) (t t' : Table) (h : step e t = some t') (a : Acc) (f : Fld)
    (hf : f.slot = some 2 ∨ f.slot = some 3) : t' a f = t a f + e.contribution a f := by
  cases e with
  | call x c =>
    rcases he with he | he
    · obtain ⟨u, hu, hv⟩ := updateChem_flow x c t he
      have : u = t' := by simpa [step, hu] using h
      subst this
      rw [hv]
      unfold Event.contribution contribution
      have hm : c.metric ≠ -1 := by rcases he.metric with hm | hm | hm <;> omega
      simp [hm]
    · obtain ⟨u, hu, h1, h2, -⟩ := updateChem_react x c t he
      have : u = t' := by simpa [step, hu] using h
      subst this
      by_cases ha : a = .res c.row
      · subst ha
        rcases hf with hf | hf
        · exact h2 f 2 hf (by omega) (by omega)
        · exact h2 f 3 hf (by omega) (by omega)
      · rw [h1 a f ha, gain_slot x c t f hf]
        simp [Event.contribution]
  | evap x row vol d m =>
    cases h
    rw [evaporate_apply]
    · simp [Event.contribution]
    · intro n hn
      constructor <;> rintro rfl <;> simp [Fld.slot] at hf
  | et row v =>
    cases h
    have : f ≠ .vol 4 := by rintro rfl; simp [Fld.slot] at hf
    simp [put, this, Event.contribution]
  | final row v =>
    cases h
    have : f ≠ .vol 5 := by rintro rfl; simp [Fld.slot] at hf
    simp [put, this, Event.contribution]
  | enter x vol conc tempc pH => cases h; exact gwGain_apply ..
  | leave x vol conc => cases h; exact gwLeak_apply ..
  | next => exact he.elim

theorem run_flow (es : List Event) (hes : ∀ e ∈ es, e.Within) (t t' : Table) (h : run es t = some t') (a : Acc) (f : Fld)
    (hf : f.slot = some 2 ∨ f.slot = some 3) : t' a f = t a f + (es.map fun e => e.contribution a f).sum := by
  induction es generalizing t with
  | nil => cases h; simp
  | cons e l ih =>
    simp only [run, Option.bind_eq_some_iff] at h
    obtain ⟨u, hu, hl⟩ := h
    rw [ih (fun e he => hes e (List.mem_cons_of_mem _ he)) u hl, step_flow e (hes e List.mem_cons_self) t u hu a f hf]
    simp only [List.map_cons, List.sum_cons]
    ring

theorem sum_zeros (rows : List Int) : (rows.map fun _ => (0 : Rat)).sum = 0 := by
  induction rows with
  | nil => rfl
  | cons r l ih => rw [List.map_cons, List.sum_cons, ih, add_zero]

theorem sum_update (rows : List Int) (hn : rows.Nodup) (g g' : Int → Rat) (row : Int) (v : Rat)
    (h : ∀ r, r ≠ row → g' r = g r) (hv : g' row = g row + v) :
    (rows.map g').sum = (rows.map g).sum + if row ∈ rows then v else 0 := by
  induction rows with
  | nil => simp
  | cons r l ih =>
    have ih := ih (List.nodup_cons.mp hn).2
    have hr := (List.nodup_cons.mp hn).1
    simp only [List.map_cons, List.sum_cons, ih]
    by_cases he : row = r
    · subst he
      rw [hv, if_neg hr, if_pos List.mem_cons_self]; ring
    · rw [h r (fun e => he e.symm)]
      have : row ∈ r :: l ↔ row ∈ l := by simp [he]
      simp only [this]; ring

/-- One event that is no reaction leaves slots 4 and 5 of the moles alone, those of isotopes excepted. -/
theorem step_still (e : Event) (he : e.Within) (hr : e.reacting = none) (t t' : Table) (h : step e t = some t') (a : Acc)
    (n s : Nat) (hs : s = 5 ∨ (s = 4 ∧ ∀ x row vol d m, e = .evap x row vol d m → x.iso n = false)) :
    t' a (.mol n s) = t a (.mol n s) := by
  have h5 : s = 5 ∨ s = 4 := hs.imp id And.left
  cases e with
  | call x c =>
    rcases he with he | he
    · obtain ⟨u, hu, hv⟩ := updateChem_flow x c t he
      have : u = t' := by simpa [step, hu] using h
      subst this
      rw [hv]
      have : amount x c c.slot (.mol n s) = 0 := by
        unfold amount Call.slot
        have : ¬ (s = if c.metric = 3 then 3 else 2) := by split_ifs <;> omega
        simp [this]
      simp [this]
    · simp [Event.reacting, he.react] at hr
  | evap x row vol d m =>
    cases h
    refine evaporate_apply x row vol d m t a _ ?_
    intro k hk
    refine ⟨?_, by simp⟩
    rcases hs with rfl | ⟨rfl, hi⟩
    · simp
    · intro e
      have := hi x row vol d m rfl
      cases e
      rw [hk] at this; cases this
  | et row v => cases h; simp [put]
  | final row v => cases h; simp [put]
  | enter x vol conc tempc pH =>
    cases h
    rw [gwGain_apply, groundwater_slot _ _ _ _ _ _ _ _ (by simp [Fld.slot]; omega), add_zero]
  | leave x vol conc =>
    cases h
    rw [gwLeak_apply, groundwater_slot _ _ _ _ _ _ _ _ (by simp [Fld.slot]; omega), add_zero]
  | next => exact he.elim

theorem run_final (A : Acc) (hA : ∀ r, A ≠ .res r) (rows : List Int) (hn : rows.Nodup) (n s : Nat) (es : List Event)
    (hes : ∀ e ∈ es, e.Within)
    (hrows : ∀ x c, Event.call x c ∈ es → c.react = true → (c.row ∈ rows ↔ partOf x c A = true) ∧ isSolute x n = true ∧ (s = 4 → x.iso n = false))
    (hevap : s = 4 → ∀ x row vol d m, Event.evap x row vol d m ∈ es → x.iso n = false)
    (hs : s = 5 ∨ s = 4) (hone : (es.filterMap Event.reacting).Nodup) (t t' : Table) (hrun : run es t = some t')
    (h0 : ∀ r ∈ es.filterMap Event.reacting, t (.res r) (.mol n s) = 0)
    (ht : t A (.mol n s) = (rows.map fun r => t (.res r) (.mol n s)).sum) :
    t' A (.mol n s) = (rows.map fun r => t' (.res r) (.mol n s)).sum := by
  induction es generalizing t with
  | nil => cases hrun; exact ht
  | cons e l ih =>
    simp only [run, Option.bind_eq_some_iff] at hrun
    obtain ⟨u, hu, hl⟩ := hrun
    have ih := ih (fun e he => hes e (List.mem_cons_of_mem _ he)) (fun x c h => hrows x c (List.mem_cons_of_mem _ h))
      (fun h4 x row vol d m h => hevap h4 x row vol d m (List.mem_cons_of_mem _ h))
    cases hr : e.reacting with
    | none =>
      have hst := fun a => step_still e (hes e List.mem_cons_self) hr t u hu a n s
        (hs.imp id fun h4 => ⟨h4, fun x row vol d m he => hevap h4 x row vol d m (he ▸ List.mem_cons_self)⟩)
      rw [List.filterMap_cons_none hr] at hone h0
      refine ih hone u hl (fun r hr => by rw [hst]; exact h0 r hr) ?_
      rw [hst A, ht]
      simp only [hst]
    | some row =>
      rw [List.filterMap_cons_some hr] at hone h0
      cases e with
      | call x c =>
        have hre : c.react = true ∧ c.row = row := by
          simp only [Event.reacting] at hr; split_ifs at hr with h
          exact ⟨h, by cases hr; rfl⟩
        obtain ⟨hc, rfl⟩ := hre
        have hR : Reacts x c := by
          rcases hes _ List.mem_cons_self with h | h
          · rw [h.still] at hc; cases hc
          · exact h
        obtain ⟨hpart, hsol, hiso⟩ := hrows x c List.mem_cons_self hc
        obtain ⟨w, hw, h1, -, -, h2, -⟩ := updateChem_react x c t hR
        have : w = u := by simpa [step, hw] using hu
        subst this
        have hz : ∀ a, contribution x c a (.mol n s) = 0 := fun a =>
          contribution_slot x c a _ (by rcases hs with rfl | rfl <;> simp [Fld.slot]) (by rcases hs with rfl | rfl <;> simp [Fld.slot])
        have hg : w (.res c.row) (.mol n s) = gain x c t (.mol n s) := by
          rcases hs with rfl | rfl
          · rw [(h2 n hsol).1]; simp [gain, hsol]
          · rw [(h2 n hsol).2.1]; simp [gain, hsol]
        have hother : ∀ r, r ≠ c.row → w (.res r) (.mol n s) = t (.res r) (.mol n s) := by
          intro r hr
          rw [h1 _ _ (by simpa using hr), hz]; simp [partOf]
        have hnn := List.nodup_cons.mp hone
        refine ih hnn.2 w hl (fun r hr => ?_) ?_
        · rw [hother r (fun e => hnn.1 (e ▸ hr))]
          exact h0 r (List.mem_cons_of_mem _ hr)
        · rw [h1 A _ (hA _), hz, ht,
            sum_update rows hn (fun r => t (.res r) (.mol n s)) (fun r => w (.res r) (.mol n s)) c.row (gain x c t (.mol n s)) hother
              (by rw [hg, h0 c.row List.mem_cons_self, zero_add])]
          simp only [hpart]; ring
      | _ => simp [Event.reacting] at hr

/-! ### Stream segments -/

theorem addAll_other (as : List Acc) (f : Fld) (v : Rat) (t : Table) (b : Acc) (g : Fld) (h : g ≠ f) : addAll as f v t b g = t b g := by
  unfold addAll
  induction as generalizing t with
  | nil => rfl
  | cons a l ih =>
    rw [List.foldl_cons, ih]
    simp [add, h]

theorem foldl_other {κ : Type} (S : Table → κ → Table) (a : Acc) (f : Fld) (h : ∀ t k, S t k a f = t a f) (l : List κ) (t : Table) :
    l.foldl S t a f = t a f := by
  induction l generalizing t with
  | nil => rfl
  | cons k l ih => rw [List.foldl_cons, ih, h]

theorem solute_loc (x : Ctx) (c : Call) (im : Nat) (vol : Rat) (t : Table) (n : Nat) (a : Acc) (f : Fld) (hf : soluteOf f ≠ some n) :
    solute x c im vol t n a f = t a f := by
  have h1 : ∀ s, f ≠ .mol n s := by rintro s rfl; exact hf rfl
  have h2 : ∀ s, f ≠ .delta n s := by rintro s rfl; exact hf rfl
  have h3 : (ownMol c im vol n t).1 a f = t a f := by
    unfold ownMol
    dsimp only
    split_ifs <;> simp [add, put, h1]
  have h4 : ∀ u : Table, ownDelta c im vol n u a f = u a f := by
    intro u
    unfold ownDelta
    split_ifs <;> simp [add, put, h2]
  unfold solute
  split_ifs
  · rw [addAll_other _ _ _ _ _ _ (h2 _), addAll_other _ _ _ _ _ _ (h1 _), h4, h3]
  · rw [addAll_other _ _ _ _ _ _ (h1 _), h3]

theorem reaction_flow (x : Ctx) (c : Call) (vol : Rat) (t : Table) (n : Nat) (a : Acc) (f : Fld)
    (hf : ∀ k, f ≠ .mol k 4 ∧ f ≠ .mol k 5 ∧ f ≠ .delta k 5 ∧ (∀ j, f ≠ .rxn k j) ∧ f ≠ .elem k) :
    reaction x c vol t n a f = t a f := by
  obtain ⟨h1, h2, h3, h4, h5⟩ := hf n
  have hent : ∀ u : Table, (cols x).foldl (entity x c vol n) u a f = u a f := by
    intro u
    refine foldl_other _ _ _ (fun t k => ?_) _ _
    unfold entity
    rw [addAll_other _ _ _ _ _ _ (h4 k)]
    simp [put, h4 k]
  unfold reaction
  rw [addAll_other _ _ _ _ _ _ h5]
  have hlast : ∀ (u : Table) v, put u (.res c.row) (.elem n) v a f = u a f := by intro u v; simp [put, h5]
  rw [hlast]
  cases hi : x.iso n with
  | true =>
    simp only [if_true]
    rw [addAll_other _ _ _ _ _ _ h2, addAll_other _ _ _ _ _ _ h1]
    split_ifs <;> simp [add, put, addAll_other _ _ _ _ _ _ h3, h1, h2, h3]
  | false =>
    simp only [Bool.false_eq_true, if_false]
    rw [hent, addAll_other _ _ _ _ _ _ h2, addAll_other _ _ _ _ _ _ h1]
    split_ifs <;> simp [add, put, h1, h2]

theorem Segment.accs {x : Ctx} {c : Call} (h : Segment x c) : volAccs x c = [] ∧ molAccs x c = [] ∧ c.stream = true := by
  have hs : c.stream = true := by unfold Call.stream; simp [h.kind]
  have hi : x.ih ≠ 1 := by have := h.above; omega
  have hu : c.unsat = false := by unfold Call.unsat; simp [h.kind]
  have : volAccs x c = [] := by
    unfold volAccs uzAccs
    simp [h.inside.1, h.inside.2, h.react, hi, hu]
  exact ⟨this, by rw [molAccs_eq, this], hs⟩

theorem segment_solute (x : Ctx) (c : Call) (h : Segment x c) (t : Table) (n : Nat) (a : Acc) (s : Nat) (vol : Rat) :
    solute x c 3 vol t n a (.mol n s) =
      if a = .res (c.row - 1) ∧ s = 1 then c.tal n * vol * 1000
      else if a = .res (c.row - 1) ∧ s = 2 then t (.res c.row) (.mol n 3) + c.tal n * vol * 1000 + c.tal n * vol * 1000
      else if a = .res c.row ∧ s = 3 then t a (.mol n s) + c.tal n * vol * 1000 else t a (.mol n s) := by
  obtain ⟨-, hm, hs⟩ := h.accs
  unfold solute ownMol ownDelta
  simp only [hm, hs, h.react, addAll_nil]
  cases hi : x.iso n <;> simp [add, put]

theorem segment_first (x : Ctx) (c : Call) (h : Segment x c) (t : Table) (n : Nat) (hn : isSolute x n = true) (a : Acc) (s : Nat) :
    (solutes x).foldl (solute x c 3 c.totvol) (compVol x c 3 c.totvol (ownVol c 3 c.totvol t)) a (.mol n s) =
      if a = .res (c.row - 1) ∧ s = 1 then c.tal n * c.totvol * 1000
      else if a = .res (c.row - 1) ∧ s = 2 then t (.res c.row) (.mol n 3) + c.tal n * c.totvol * 1000 + c.tal n * c.totvol * 1000
      else if a = .res c.row ∧ s = 3 then t a (.mol n s) + c.tal n * c.totvol * 1000 else t a (.mol n s) := by
  have hkeep : ∀ (l : List Nat) (u : Table) a s, n ∉ l → l.foldl (solute x c 3 c.totvol) u a (.mol n s) = u a (.mol n s) := by
    intro l
    induction l with
    | nil => intros; rfl
    | cons k l ih =>
      intro u a s hl
      rw [List.foldl_cons, ih _ _ _ (fun h => hl (List.mem_cons_of_mem _ h)), solute_loc]
      simp only [soluteOf, ne_eq, Option.some.injEq]
      rintro rfl; exact hl List.mem_cons_self
  have hgo : ∀ (l : List Nat) (u : Table), n ∈ l → l.Nodup → l.foldl (solute x c 3 c.totvol) u a (.mol n s) =
      if a = .res (c.row - 1) ∧ s = 1 then c.tal n * c.totvol * 1000
      else if a = .res (c.row - 1) ∧ s = 2 then u (.res c.row) (.mol n 3) + c.tal n * c.totvol * 1000 + c.tal n * c.totvol * 1000
      else if a = .res c.row ∧ s = 3 then u a (.mol n s) + c.tal n * c.totvol * 1000 else u a (.mol n s) := by
    intro l
    induction l with
    | nil => intro u hl; simp at hl
    | cons k l ih =>
      intro u hl hnd
      rw [List.foldl_cons]
      by_cases hk : k = n
      · subst hk
        rw [hkeep _ _ _ _ (List.nodup_cons.mp hnd).1, segment_solute x c h]
      · have hl' : n ∈ l := by
          rcases List.mem_cons.mp hl with e | e
          · exact absurd e.symm hk
          · exact e
        rw [ih _ hl' (List.nodup_cons.mp hnd).2]
        have : ∀ a s, solute x c 3 c.totvol u k a (.mol n s) = u a (.mol n s) := by
          intro a s
          refine solute_loc _ _ _ _ _ _ _ _ ?_
          simp only [soluteOf, ne_eq, Option.some.injEq]
          exact fun e => hk e.symm
        simp only [this]
  rw [hgo _ _ ((mem_solutes x n).mpr hn) (solutes_nodup x)]
  have hown : ∀ a s, compVol x c 3 c.totvol (ownVol c 3 c.totvol t) a (.mol n s) = t a (.mol n s) := by
    intro a s
    rw [compVol_apply]
    unfold ownVol
    simp [add]
  simp only [hown]

theorem rxnVol_mol (x : Ctx) (c : Call) (im : Nat) (vol : Rat) (t : Table) (a : Acc) (n s : Nat) :
    (rxnVol x c im vol t).1 a (.mol n s) = t a (.mol n s) := by
  unfold rxnVol
  dsimp only
  split_ifs <;> simp [add, put, addAll_other]

theorem massSteps_mol (x : Ctx) (c : Call) (t : Table) (a : Acc) (n s : Nat) :
    (cols x).foldl (massStep c) t a (.mol n s) = t a (.mol n s) := by
  rw [massSteps_apply]

theorem segment_call (x : Ctx) (c : Call) (h : Segment x c) (t : Table) :
    ∃ t', updateChem x c t = some t' ∧
      (∀ n s a, isSolute x n = true → s ≤ 3 → t' a (.mol n s) =
        if a = .res (c.row - 1) ∧ s = 1 then c.tal n * c.totvol * 1000
        else if a = .res (c.row - 1) ∧ s = 2 then t (.res c.row) (.mol n 3) + c.tal n * c.totvol * 1000 + c.tal n * c.totvol * 1000
        else if a = .res c.row ∧ s = 3 then t a (.mol n s) + c.tal n * c.totvol * 1000 else t a (.mol n s)) ∧
      t' .hyd (.vol 5) = t .hyd (.vol 3) + x.upvol ∧
      (∀ s, s = 2 ∨ s = 3 → t' .hyd (.vol s) = t .hyd (.vol s)) := by
  have hst := h.accs
  have him : c.im = 3 := by unfold Call.im; simp [h.metric]
  have hv : callVol c 3 t = c.totvol := by unfold callVol; simp
  unfold updateChem
  simp only [him, h.react]
  rw [if_neg (by decide)]
  simp only [show (3 : Int).toNat = 3 from rfl, hv, if_true]
  rw [if_neg (by decide)]
  refine ⟨_, rfl, ?_, ?_⟩
  · intro n s a hn hs
    rw [massSteps_mol, foldl_other, rxnVol_mol, segment_first x c h t n hn a s]
    intro t k
    apply reaction_flow
    intro k
    refine ⟨?_, ?_, by simp, by simp, by simp⟩
    · intro e; cases e; omega
    · intro e; cases e; omega
  · have hvol : ∀ s, (solutes x).foldl (solute x c 3 c.totvol) (compVol x c 3 c.totvol (ownVol c 3 c.totvol t)) .hyd (.vol s) =
        t .hyd (.vol s) := by
      intro s
      rw [foldl_other _ _ _ (fun t k => solute_loc _ _ _ _ _ _ _ _ (by simp [soluteOf])), compVol_apply, hst.1]
      unfold ownVol
      simp [add]
    have hab : x.ih > 1 := h.above
    refine ⟨?_, fun s hs => ?_⟩ <;>
      rw [massSteps_apply] <;> dsimp only <;>
      rw [foldl_other _ _ _ (fun t k => reaction_flow _ _ _ _ _ _ _ (by intro k; simp))] <;>
      unfold rxnVol <;> simp only [hst.2.2, hab, if_true]
    · simp [add, put, addAll_other, hvol, addAll]
    · simp only [addAll, List.foldl_cons, List.foldl_nil]
      rcases hs with rfl | rfl <;> simp [add, put, hvol]

end Verif.Chem
