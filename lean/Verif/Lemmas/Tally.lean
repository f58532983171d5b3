import Verif.Spec.Tally
import Mathlib.Tactic.SplitIfs
import Mathlib.Tactic.Linarith
import Mathlib.Tactic.Ring
import Mathlib.Algebra.Order.Field.Rat
import Mathlib.Algebra.Order.Ring.Rat
namespace Verif.Tally

theorem rowOf_iff (db : Db) (rows : Rows) (p j : Nat) : rowOf db rows p = some j ↔ shown db rows j = some p := by
  unfold rowOf shown
  rw [List.findIdx?_eq_some_iff_getElem]
  constructor
  · rintro ⟨hj, h1, h2⟩
    have hr : rows[j]? = some rows[j] := List.getElem?_eq_getElem hj
    rw [hr]
    cases hm : rows[j] with
    | none => rw [hm] at h1; simp at h1
    | some m =>
      rw [hm] at h1
      have hp : db.primary m = p := by simpa using h1
      simp only [Option.join_some]
      rw [if_pos]
      · rw [hp]
      · intro i hi hh
        have := h2 i hi
        rw [List.getElem?_eq_getElem (by omega), Option.join_some, hp] at hh
        rw [hh] at this
        simp at this
  · intro h
    cases hr : rows[j]? with
    | none => rw [hr] at h; simp at h
    | some x =>
      rw [hr] at h
      obtain ⟨hj, hx⟩ := List.getElem?_eq_some_iff.1 hr
      cases x with
      | none => simp at h
      | some m =>
        simp only [Option.join_some] at h
        split_ifs at h with hc
        have hp := Option.some.inj h
        refine ⟨hj, ?_, ?_⟩
        · rw [hx, ← hp]; simp
        · intro i hi hh
          apply hc i hi
          rw [List.getElem?_eq_getElem (by omega), Option.join_some, hp]
          simpa using hh

theorem amount_notMem (es : Elts) (p : Nat) (h : p ∉ es.map (·.1)) : amount es p = 0 := by
  induction es with
  | nil => rfl
  | cons e es ih =>
    simp only [List.map_cons, List.mem_cons, not_or] at h
    have := ih h.2
    unfold amount at this ⊢
    simp only [List.map_cons, List.sum_cons, this]
    rw [if_neg (fun hh => h.1 hh.symm)]
    ring

theorem amount_cons (e : Nat × Rat) (es : Elts) (p : Nat) :
    amount (e :: es) p = (if e.1 = p then e.2 else 0) + amount es p := rfl

theorem shown_lt {db : Db} {rows : Rows} {j p : Nat} (h : shown db rows j = some p) : j < rows.length := by
  by_contra hc
  unfold shown at h
  rw [List.getElem?_eq_none (by omega)] at h
  simp at h

theorem eltFold (db : Db) (rows : Rows) (es : Elts) : ∀ buf : List Rat, buf.length = rows.length → Listed db rows es →
    ∃ b, es.foldlM (eltOne db rows) buf = some b ∧ b.length = rows.length ∧
      ∀ j, b[j]? = match shown db rows j with
        | none => buf[j]?
        | some p => if counted db p ∧ p ∈ es.map (·.1) then some (amount es p) else buf[j]? := by
  induction es with
  | nil =>
    intro buf hb _
    refine ⟨buf, rfl, hb, fun j => ?_⟩
    cases shown db rows j <;> simp
  | cons e es ih =>
    intro buf hb hl
    have hl' : Listed db rows es := ⟨(List.nodup_cons.1 hl.1).2, fun p hp => hl.2 p (List.mem_cons_of_mem _ hp)⟩
    have hne : e.1 ∉ es.map (·.1) := (List.nodup_cons.1 hl.1).1
    rw [List.foldlM_cons]
    by_cases hc : counted db e.1
    · obtain ⟨i, hi⟩ := hl.2 e.1 (by simp) hc
      have hr := (rowOf_iff db rows e.1 i).2 hi
      have h1 : eltOne db rows buf e = some (buf.set i e.2) := by
        unfold eltOne
        rw [if_neg (by rintro (h | h); · simp [hc.1] at h
                       · simp [hc.2] at h), hr]; rfl
      obtain ⟨b, hb1, hb2, hb3⟩ := ih (buf.set i e.2) (by simpa using hb) hl'
      refine ⟨b, by rw [h1]; exact hb1, hb2, fun j => ?_⟩
      rw [hb3 j]
      cases hs : shown db rows j with
      | none =>
        have : i ≠ j := by rintro rfl; rw [hs] at hi; simp at hi
        simp [this]
      | some p =>
        dsimp only
        by_cases hp : p = e.1
        · have hij : i = j := by
            have := (rowOf_iff db rows e.1 j).2 (hp ▸ hs)
            rw [hr] at this; exact Option.some.inj this
          have hlt := shown_lt hs
          rw [if_neg (by rintro ⟨_, h⟩; exact hne (hp ▸ h)), if_pos ⟨hp ▸ hc, by simp [hp]⟩, amount_cons, hp,
            amount_notMem es e.1 hne, hij]
          simp only [if_true]
          rw [List.getElem?_set_self (by omega)]
          simp
        · have hij : i ≠ j := by rintro rfl; rw [hs] at hi; exact hp (Option.some.inj hi)
          have hmem : p ∈ (e :: es).map (·.1) ↔ p ∈ es.map (·.1) := by simp only [List.map_cons, List.mem_cons, hp, false_or]
          rw [amount_cons, if_neg (fun h : e.1 = p => hp h.symm), List.getElem?_set_ne hij, zero_add]
          simp only [hmem]
    · have h1 : eltOne db rows buf e = some buf := by
        unfold eltOne
        rw [if_pos]
        unfold counted at hc
        by_contra hh
        simp only [not_or, Bool.not_eq_true, Bool.not_eq_false] at hh
        exact hc hh
      obtain ⟨b, hb1, hb2, hb3⟩ := ih buf hb hl'
      refine ⟨b, by rw [h1]; exact hb1, hb2, fun j => ?_⟩
      rw [hb3 j]
      cases hs : shown db rows j with
      | none => rfl
      | some p =>
        dsimp only
        by_cases hp : p = e.1
        · rw [hp]; simp [hc]
        · have hmem : p ∈ (e :: es).map (·.1) ↔ p ∈ es.map (·.1) := by simp only [List.map_cons, List.mem_cons, hp, false_or]
          rw [amount_cons, if_neg (fun h : e.1 = p => hp h.symm), zero_add]
          simp only [hmem]

theorem eltTally_cell (db : Db) (rows : Rows) (es : Elts) (h : Listed db rows es) :
    eltTally db rows es = some ((List.range rows.length).map (cell db rows es)) := by
  obtain ⟨b, h1, h2, h3⟩ := eltFold db rows es (List.replicate rows.length 0) (by simp) h
  unfold eltTally
  rw [h1]
  congr 1
  apply List.ext_getElem?
  intro j
  rw [h3 j]
  by_cases hj : j < rows.length
  · have e1 : ((List.range rows.length).map (cell db rows es))[j]? = some (cell db rows es j) := by
      rw [List.getElem?_map, List.getElem?_range hj]; rfl
    have e2 : (List.replicate rows.length (0:Rat))[j]? = some 0 := by rw [List.getElem?_replicate, if_pos hj]
    rw [e1, e2]
    unfold cell
    cases hs : shown db rows j with
    | none => rfl
    | some p =>
      simp only
      by_cases hp : p ∈ es.map (·.1)
      · simp only [hp, and_true]; split_ifs <;> rfl
      · simp only [hp, and_false, if_false, amount_notMem es p hp, ite_self]
  · have hs : shown db rows j = none := by
      cases hs : shown db rows j with
      | none => rfl
      | some p => exact absurd (shown_lt hs) hj
    rw [hs, List.getElem?_eq_none (by simpa using hj), List.getElem?_eq_none (by simpa using hj)]

theorem amount_scale (es : Elts) (x : Rat) (p : Nat) : amount (scale es x) p = amount es p * x := by
  induction es with
  | nil => simp [scale, amount]
  | cons e es ih =>
    have : scale (e :: es) x = (e.1, e.2 * x) :: scale es x := rfl
    rw [this, amount_cons, amount_cons, ih]
    split_ifs <;> ring

theorem scale_listed {db : Db} {rows : Rows} {es : Elts} (h : Listed db rows es) (x : Rat) : Listed db rows (scale es x) := by
  have : (scale es x).map (·.1) = es.map (·.1) := by simp [scale, Function.comp_def]
  unfold Listed
  rw [this]
  exact h

theorem cell_zero (db : Db) (rows : Rows) (j : Nat) (es : Elts) (h : ∀ p, amount es p = 0) : cell db rows es j = 0 := by
  unfold cell
  cases shown db rows j with
  | none => rfl
  | some p => simp [h p]

/-! Solutions -/

theorem masterTot_spec (db : Db) (s : Sol) (h : (s.totals.map (·.1)).Nodup) (m : Nat) : masterTot db s m = solTotal db s m := by
  unfold masterTot solTotal
  by_cases hm : m ∈ s.totals.map (·.1)
  · rw [if_pos hm]
    have key : ∀ l : List (Nat × Rat), (l.map (·.1)).Nodup → m ∈ l.map (·.1) →
        ∃ v, l.filter (fun p => decide (p.1 = m)) = [(m, v)] ∧ amount l m = v := by
      intro l
      induction l with
      | nil => intro _ h; simp at h
      | cons e l ih =>
        intro hn hmem
        by_cases he : e.1 = m
        · have hne : m ∉ l.map (·.1) := he ▸ (List.nodup_cons.1 hn).1
          refine ⟨e.2, ?_, ?_⟩
          · rw [List.filter_cons_of_pos (by simpa using he)]
            have : l.filter (fun p => decide (p.1 = m)) = [] := by
              rw [List.filter_eq_nil_iff]
              intro a ha
              have : a.1 ≠ m := fun hh => hne (hh ▸ List.mem_map_of_mem ha)
              simpa using this
            rw [this, ← he]
          · rw [amount_cons, if_pos he, amount_notMem l m hne]; ring
        · have hmem' : m ∈ l.map (·.1) := by
            simp only [List.map_cons, List.mem_cons] at hmem
            rcases hmem with h | h
            · exact absurd h.symm he
            · exact h
          obtain ⟨v, h1, h2⟩ := ih (List.nodup_cons.1 hn).2 hmem'
          refine ⟨v, ?_, ?_⟩
          · rw [List.filter_cons_of_neg (by simpa using he)]; exact h1
          · rw [amount_cons, if_neg he, h2]; ring
    obtain ⟨v, h1, h2⟩ := key s.totals h hm
    rw [h1, h2]
    rfl
  · rw [if_neg hm]
    have : s.totals.filter (fun p => decide (p.1 = m)) = [] := by
      rw [List.filter_eq_nil_iff]
      intro a ha
      have : a.1 ≠ m := fun hh => hm (hh ▸ List.mem_map_of_mem ha)
      simpa using this
    rw [this]
    rfl

theorem masterFold (db : Db) (rows : Rows) (tot : Nat → Rat)
    (hu : ∀ (i j m : Nat), rows[i]? = some (some m) → rows[j]? = some (some m) → i = j) :
    ∀ (ms : List Nat) (buf : List Rat), buf.length = rows.length →
    (∀ m ∈ ms, counted db (db.primary m) → 0 < tot m → some m ∈ rows) →
    ∃ b, ms.foldlM (masterOne db rows tot) buf = some b ∧ b.length = rows.length ∧
      ∀ j : Nat, b[j]? = match (rows[j]?).join with
        | none => buf[j]?
        | some m => if m ∈ ms ∧ counted db (db.primary m) ∧ 0 < tot m then some (tot m) else buf[j]? := by
  intro ms
  induction ms with
  | nil =>
    intro buf hb _
    refine ⟨buf, rfl, hb, fun j => ?_⟩
    cases (rows[j]?).join <;> simp
  | cons m0 ms ih =>
    intro buf hb hl
    have hl' : ∀ m ∈ ms, counted db (db.primary m) → 0 < tot m → some m ∈ rows := fun m hm => hl m (List.mem_cons_of_mem _ hm)
    rw [List.foldlM_cons]
    by_cases hc : counted db (db.primary m0) ∧ 0 < tot m0
    · have hmem := hl m0 (by simp) hc.1 hc.2
      obtain ⟨i, hi, hri⟩ := List.mem_iff_getElem.1 hmem
      have hri' : rows[i]? = some (some m0) := by rw [List.getElem?_eq_getElem hi, hri]
      have hf : rows.findIdx? (fun r => r == some m0) = some i := by
        rw [List.findIdx?_eq_some_iff_getElem]
        refine ⟨hi, by simp [hri], ?_⟩
        intro j hj hh
        have hjm : rows[j] = some m0 := by simpa using hh
        have := hu j i m0 (by rw [List.getElem?_eq_getElem (by omega), hjm]) hri'
        omega
      have h1 : masterOne db rows tot buf m0 = some (buf.set i (tot m0)) := by
        unfold masterOne
        rw [if_neg, hf]
        · rfl
        · rintro (h | h | h)
          · exact absurd h (by have := hc.2; linarith)
          · simp [hc.1.1] at h
          · simp [hc.1.2] at h
      obtain ⟨b, hb1, hb2, hb3⟩ := ih (buf.set i (tot m0)) (by simpa using hb) hl'
      refine ⟨b, by rw [h1]; exact hb1, hb2, fun j => ?_⟩
      rw [hb3 j]
      cases hs : (rows[j]?).join with
      | none =>
        have : i ≠ j := by rintro rfl; rw [hri'] at hs; simp at hs
        simp [this]
      | some m =>
        dsimp only
        have hjm : rows[j]? = some (some m) := by
          cases hx : rows[j]? with
          | none => rw [hx] at hs; simp at hs
          | some x => rw [hx] at hs; simp only [Option.join_some] at hs; rw [hs]
        by_cases hm : m = m0
        · have hij : i = j := hu i j m0 hri' (hm ▸ hjm)
          rw [hij, hm]
          have : j < buf.length := by rw [← hij]; omega
          rw [if_pos (⟨by simp, hc⟩ : m0 ∈ m0 :: ms ∧ _), List.getElem?_set_self this]
          split_ifs <;> rfl
        · have hij : i ≠ j := by
            rintro rfl; rw [hri'] at hjm; exact hm (Option.some.inj (Option.some.inj hjm)).symm
          rw [List.getElem?_set_ne hij]
          simp [hm]
    · have h1 : masterOne db rows tot buf m0 = some buf := by
        unfold masterOne
        rw [if_pos]
        by_contra hh
        simp only [not_or, Bool.not_eq_true, Bool.not_eq_false, not_le] at hh
        exact hc ⟨hh.2, hh.1⟩
      obtain ⟨b, hb1, hb2, hb3⟩ := ih buf hb hl'
      refine ⟨b, by rw [h1]; exact hb1, hb2, fun j => ?_⟩
      rw [hb3 j]
      cases hs : (rows[j]?).join with
      | none => rfl
      | some m =>
        dsimp only
        by_cases hm : m = m0
        · rw [hm]; simp [hc]
        · simp [hm]

theorem solTally (db : Db) (rows : Rows) (s : Sol) (h3 : 3 ≤ rows.length)
    (hu : ∀ (i j m : Nat), rows[i]? = some (some m) → rows[j]? = some (some m) → i = j)
    (hdb : ∀ m, some m ∈ rows → m < db.count) (hk : (s.totals.map (·.1)).Nodup)
    (ht : ∀ m, m < db.count → counted db (db.primary m) → 0 < solTotal db s m → some m ∈ rows) :
    ((masterTally db rows (masterTot db s)).map fun b => ((b.set 0 s.alk).set 1 s.h).set 2 s.o) =
      some ((List.range rows.length).map (solCell db rows s)) := by
  have htot : masterTot db s = solTotal db s := funext (masterTot_spec db s hk)
  rw [htot]
  obtain ⟨b, h1, h2, hb3⟩ := masterFold db rows (solTotal db s) hu (List.range db.count) (List.replicate rows.length 0) (by simp)
    (fun m hm => ht m (List.mem_range.1 hm))
  unfold masterTally
  rw [h1]
  simp only [Option.map_some]
  congr 1
  apply List.ext_getElem?
  intro j
  by_cases hj : j < rows.length
  · have e1 : ((List.range rows.length).map (solCell db rows s))[j]? = some (solCell db rows s j) := by
      rw [List.getElem?_map, List.getElem?_range hj]; rfl
    rw [e1]
    unfold solCell
    simp only [List.getElem?_set, List.length_set]
    rcases Nat.lt_or_ge j 3 with h | h
    · have : j = 0 ∨ j = 1 ∨ j = 2 := by omega
      rcases this with rfl | rfl | rfl
      · rw [if_neg (by omega), if_neg (by omega), if_pos rfl, if_pos (by omega), if_pos rfl]
      · rw [if_neg (by omega), if_pos rfl, if_pos (by omega), if_neg (by omega), if_pos rfl]
      · rw [if_pos rfl, if_pos (by omega), if_neg (by omega), if_neg (by omega), if_pos rfl]
    · rw [if_neg (by omega), if_neg (by omega), if_neg (by omega), if_neg (by omega), if_neg (by omega), if_neg (by omega), hb3 j]
      have e2 : (List.replicate rows.length (0:Rat))[j]? = some 0 := by rw [List.getElem?_replicate, if_pos hj]
      rw [e2]
      cases hs : (rows[j]?).join with
      | none => rfl
      | some m =>
        dsimp only
        have hm : m < db.count := by
          apply hdb
          cases hx : rows[j]? with
          | none => rw [hx] at hs; simp at hs
          | some x =>
            rw [hx] at hs; simp only [Option.join_some] at hs; rw [← hs]
            exact List.mem_of_getElem? hx
        have : m ∈ List.range db.count := List.mem_range.2 hm
        simp only [this, true_and]
        split_ifs <;> rfl
  · rw [List.getElem?_eq_none (by simpa [h2] using hj), List.getElem?_eq_none (by simpa using hj)]

/-! Filling -/

def mapFrom (f : Nat → Col → Col) : Nat → List Col → List Col
  | _, [] => []
  | i, c :: cs => f i c :: mapFrom f (i + 1) cs

theorem mapFrom_length (f : Nat → Col → Col) (cs : List Col) : ∀ i, (mapFrom f i cs).length = cs.length := by
  induction cs with
  | nil => intro i; rfl
  | cons c cs ih => intro i; simp [mapFrom, ih]

theorem mapFrom_get (f : Nat → Col → Col) (cs : List Col) : ∀ (i k : Nat), (mapFrom f i cs)[k]? = (cs[k]?).map (f (i + k)) := by
  induction cs with
  | nil => intro i k; simp [mapFrom]
  | cons c cs ih =>
    intro i k
    cases k with
    | zero => simp [mapFrom]
    | succ k =>
      simp only [mapFrom, List.getElem?_cons_succ, ih]
      congr 2
      omega

theorem fillFrom_map (db : Db) (rows : Rows) (e : Ents) (nUser : Kind → Int) (cons : Int) (slot : Nat) (f g : Nat → Col → Col)
    (cs : List Col) : ∀ i : Nat,
    (∀ (k : Nat) (c : Col), cs[k]? = some c →
      putFound slot (f (i + k) c) (findCol db rows e nUser cons slot (i + k) (f (i + k) c)) = some (g (i + k) c)) →
    fillFrom db rows e nUser cons slot i (mapFrom f i cs) = some (mapFrom g i cs) := by
  induction cs with
  | nil => intro i _; rfl
  | cons c cs ih =>
    intro i h
    have h0 := h 0 c (by simp)
    simp only [Nat.add_zero] at h0
    simp only [mapFrom, fillFrom, h0]
    rw [ih (i + 1) (fun k c hk => ?_)]
    · rfl
    · have := h (k + 1) c (by simpa using hk)
      rw [show i + 1 + k = i + (k + 1) by omega]
      exact this

def zeros (rows : Rows) : List Rat := List.replicate rows.length 0
def zeroCol (rows : Rows) (_ : Nat) (c : Col) : Col := { c with moles := 0, initial := zeros rows, final := zeros rows, diff := zeros rows }
def cells (db : Db) (rows : Rows) (es : Elts) : List Rat := (List.range rows.length).map (cell db rows es)

theorem zero_eq (rows : Rows) (cs : List Col) : ∀ i, zero rows cs = mapFrom (zeroCol rows) i cs := by
  induction cs with
  | nil => intro i; rfl
  | cons c cs ih => intro i; simp only [mapFrom, ← ih (i + 1)]; rfl

theorem cells_zero (db : Db) (rows : Rows) (es : Elts) (h : ∀ p, amount es p = 0) : cells db rows es = zeros rows := by
  unfold cells zeros
  apply List.ext_getElem
  · simp
  · intro i h1 h2
    simp [cell_zero db rows _ es h]

theorem cells_nil (db : Db) (rows : Rows) : cells db rows [] = zeros rows := cells_zero db rows [] (fun _ => rfl)

theorem component_eq (l : Option (List (Text × Rat))) (name : Text) :
    component l name = l.bind fun l => compMoles l name := rfl

theorem findComp_ok (db : Db) (rows : Rows) (l : Option (List (Text × Rat))) (c : Col) (hf : Listed db rows c.formula) :
    findComp db rows l c = match component l c.name with
      | none => .nothing
      | some m => .amounts (some m) (cells db rows (timesFormula c.formula m)) := by
  rw [component_eq]
  unfold findComp
  cases l with
  | none => rfl
  | some l =>
    simp only [Option.bind_some]
    cases hm : compMoles l c.name with
    | none => rfl
    | some m =>
      simp only [eltTally_cell db rows _ (scale_listed hf m), Found.ofOption]
      rfl

/-- The amounts and moles found for a column that is not a solution. -/
theorem findCol_ok (db : Db) (rows : Rows) (e : Ents) (nUser : Kind → Int) (cons : Int) (slot i : Nat) (c : Col)
    (he : EntsOk db rows e) (hf : Listed db rows c.formula) (hk : c.kind ≠ .solution) :
    (findCol db rows e nUser cons slot i c = .nothing ∧ reactantMoles e nUser c = none ∧
        cells db rows (holds e nUser (slot == 1) c) = zeros rows) ∨
      findCol db rows e nUser cons slot i c =
        .amounts (reactantMoles e nUser c) (cells db rows (holds e nUser (slot == 1) c)) := by
  have elts : ∀ (n : Int) (o : Option Elts), (∀ es, o = some es → Listed db rows es) →
      (findElts db rows o = .nothing ∧ o.getD [] = []) ∨ findElts db rows o = .amounts none (cells db rows (o.getD [])) := by
    intro n o ho
    cases o with
    | none => left; exact ⟨rfl, rfl⟩
    | some es =>
      right
      simp only [findElts, eltTally_cell db rows es (ho es rfl), Found.ofOption]
      rfl
  unfold findCol holds reactantMoles
  cases hkind : c.kind with
  | solution => exact absurd hkind hk
  | reaction =>
    dsimp only
    by_cases hn : nUser .reaction < 0
    · left; simp only [hn, if_true, true_or, cells_nil, and_self]
    · simp only [hn, if_false, false_or]
      cases hr : e.reaction (nUser .reaction) with
      | none => left; simp [findElts, cells_nil]
      | some r =>
        right
        simp only [Option.map_some, findElts, eltTally_cell db rows _ (scale_listed (he.reaction _ r hr) _), Found.ofOption]
        congr 1
        by_cases hs : slot = 1
        · subst hs; rfl
        · have hb : (slot == 1) = false := by simpa using hs
          simp only [hs, if_false, hb, if_true]
          rw [cells_nil]
          exact cells_zero db rows _ (fun p => by rw [amount_scale]; ring)
  | exchange =>
    dsimp only
    by_cases hn : nUser .exchange < 0
    · left; simp only [hn, if_true, cells_nil, and_self]
    · simp only [hn, if_false]
      rcases elts 0 (e.exchange (nUser .exchange)) (fun es => he.exchange _ es) with ⟨h1, h2⟩ | h
      · left; rw [h1, h2, cells_nil]; simp
      · right; exact h
  | surface =>
    dsimp only
    by_cases hn : nUser .surface < 0
    · left; simp only [hn, if_true, cells_nil, and_self]
    · simp only [hn, if_false]
      rcases elts 0 (e.surface (nUser .surface)) (fun es => he.surface _ es) with ⟨h1, h2⟩ | h
      · left; rw [h1, h2, cells_nil]; simp
      · right; exact h
  | gas =>
    dsimp only
    by_cases hn : nUser .gas < 0
    · left; simp only [hn, if_true, cells_nil, and_self]
    · simp only [hn, if_false]
      rcases elts 0 (e.gas (nUser .gas)) (fun es => he.gas _ es) with ⟨h1, h2⟩ | h
      · left; rw [h1, h2, cells_nil]; simp
      · right; exact h
  | pure =>
    dsimp only
    by_cases hn : nUser .pure < 0
    · left; simp only [hn, if_true, cells_nil, and_self]
    · simp only [hn, if_false, findComp_ok db rows _ c hf]
      cases component (e.pure (nUser .pure)) c.name with
      | none => left; simp [cells_nil]
      | some m => right; rfl
  | ss =>
    dsimp only
    by_cases hn : nUser .ss < 0
    · left; simp only [hn, if_true, cells_nil, and_self]
    · simp only [hn, if_false, findComp_ok db rows _ c hf]
      cases component (e.ss (nUser .ss)) c.name with
      | none => left; simp [cells_nil]
      | some m => right; rfl
  | kinetics =>
    dsimp only
    by_cases hn : nUser .kinetics < 0
    · left; simp only [hn, if_true, cells_nil, and_self]
    · simp only [hn, if_false, findComp_ok db rows _ c hf]
      cases component (e.kinetics (nUser .kinetics)) c.name with
      | none => left; simp [cells_nil]
      | some m => right; rfl

/-- Final amounts of a solution column. -/
def solFinal (db : Db) (rows : Rows) (after : Ents) (nUser : Kind → Int) (cons : Int) (i : Nat) : List Rat :=
  if nUser .solution < 0 then zeros rows else
    match after.solution (if i = 0 then cons else nUser .solution) with
    | none => zeros rows
    | some s => (List.range rows.length).map (solCell db rows s)

/-- The column after the first filling. -/
def col1 (db : Db) (rows : Rows) (nUser : Kind → Int) (before : Ents) (i : Nat) (c : Col) : Col :=
  { zeroCol rows i c with
    moles := (reactantMoles before nUser c).getD 0
    initial := if i < 2 then zeros rows else cells db rows (holds before nUser false c) }

/-- The column after the second filling. -/
def col2 (db : Db) (rows : Rows) (nUser : Kind → Int) (cons : Int) (before after : Ents) (i : Nat) (c : Col) : Col :=
  { col1 db rows nUser before i c with
    moles := (reactantMoles after nUser c).getD ((reactantMoles before nUser c).getD 0)
    final := if i < 2 then solFinal db rows after nUser cons i else cells db rows (holds after nUser true c) }

theorem reactantMoles_sol (e : Ents) (nUser : Kind → Int) (c : Col) (h : c.kind = .solution) : reactantMoles e nUser c = none := by
  unfold reactantMoles; rw [h]

theorem fill_both (db : Db) (rows : Rows) (cs : List Col) (nUser : Kind → Int) (cons : Int) (before after : Ents)
    (ht : TableOk db rows cs) (hb : EntsOk db rows before) (ha : EntsOk db rows after) :
    ((fillFrom db rows before nUser cons 0 0 (zero rows cs)).bind fun c0 => fillFrom db rows after nUser cons 1 0 c0) =
      some (mapFrom (col2 db rows nUser cons before after) 0 cs) := by
  rw [zero_eq rows cs 0]
  rw [fillFrom_map db rows before nUser cons 0 (zeroCol rows) (col1 db rows nUser before) cs 0]
  · simp only [Option.bind_some]
    apply fillFrom_map
    intro k c hk
    have hsol := ht.solutions k c hk
    have hf := ht.formulas c (List.mem_of_getElem? hk)
    rw [Nat.zero_add]
    by_cases h2 : k < 2
    · have hkind := hsol.2 h2
      have hfc : findCol db rows after nUser cons 1 k (col1 db rows nUser before k c) = findSolution db rows after nUser cons 1 k := by
        unfold findCol
        rw [show (col1 db rows nUser before k c).kind = .solution from hkind]
      rw [hfc]
      unfold findSolution
      have hrm := reactantMoles_sol after nUser c hkind
      by_cases hn : nUser .solution < 0
      · simp only [hn, true_or, if_true, putFound]
        unfold col2
        simp only [h2, if_true, solFinal, hn, hrm, Option.getD_none]
        rfl
      · simp only [hn, false_or, one_ne_zero, if_false, show ¬ 2 ≤ k by omega]
        cases hs : after.solution (if k = 0 then cons else nUser .solution) with
        | none =>
          simp only [putFound]
          unfold col2
          simp only [h2, if_true, solFinal, hn, if_false, hs, hrm, Option.getD_none]
          rfl
        | some s =>
          simp only [solTally db rows s ht.rows3 ht.masters ht.inDb (ha.keys _ s hs) (ha.totals _ s hs), Found.ofOption, putFound]
          unfold col2
          simp only [h2, if_true, solFinal, hn, if_false, hs, hrm, Option.getD_none, one_ne_zero]
          rfl
    · have hkind : c.kind ≠ .solution := fun h => h2 (hsol.1 h)
      rcases findCol_ok db rows after nUser cons 1 k (col1 db rows nUser before k c) ha hf hkind with ⟨h1, h3, h4⟩ | h1
      · have h3' : reactantMoles after nUser c = none := h3
        have h4' : cells db rows (holds after nUser true c) = zeros rows := h4
        rw [h1]
        simp only [putFound]
        unfold col2
        simp only [h2, if_false, h3', Option.getD_none, h4']
        rfl
      · rw [h1]
        simp only [putFound, one_ne_zero, if_false]
        unfold col2
        simp only [h2, if_false]
        rfl
  · intro k c hk
    have hsol := ht.solutions k c hk
    have hf := ht.formulas c (List.mem_of_getElem? hk)
    rw [Nat.zero_add]
    by_cases h2 : k < 2
    · have hkind := hsol.2 h2
      have hfc : findCol db rows before nUser cons 0 k (zeroCol rows k c) = findSolution db rows before nUser cons 0 k := by
        unfold findCol
        rw [show (zeroCol rows k c).kind = .solution from hkind]
      rw [hfc]
      unfold findSolution
      have hrm := reactantMoles_sol before nUser c hkind
      simp only [or_true, if_true, putFound]
      unfold col1
      simp only [h2, if_true, hrm, Option.getD_none]
      rfl
    · have hkind : c.kind ≠ .solution := fun h => h2 (hsol.1 h)
      rcases findCol_ok db rows before nUser cons 0 k (zeroCol rows k c) hb hf hkind with ⟨h1, h3, h4⟩ | h1
      · have h3' : reactantMoles before nUser c = none := h3
        have h4' : cells db rows (holds before nUser false c) = zeros rows := h4
        rw [h1]
        simp only [putFound]
        unfold col1
        simp only [h2, if_false, h3', Option.getD_none, h4']
        rfl
      · rw [h1]
        simp only [putFound, if_true]
        unfold col1
        simp only [h2, if_false]
        rfl

/-! Storing -/

theorem writeAll_ok (vs : List Rat) : ∀ (a : List Rat) (i : Nat), i + vs.length ≤ a.length →
    ∃ b, writeAll a i vs = some b ∧ b.length = a.length ∧ (∀ j, j < vs.length → b[i + j]? = vs[j]?) ∧
      ∀ q : Nat, (∀ j, j < vs.length → q ≠ i + j) → b[q]? = a[q]? := by
  induction vs with
  | nil => intro a i _; exact ⟨a, rfl, rfl, fun j h => absurd h (by simp), fun q _ => rfl⟩
  | cons v vs ih =>
    intro a i h
    simp only [List.length_cons] at h
    have hw : write a i v = some (a.set i v) := by unfold write; rw [if_pos (by omega)]
    obtain ⟨b, h1, h2, h3, h4⟩ := ih (a.set i v) (i + 1) (by rw [List.length_set]; omega)
    refine ⟨b, by simp only [writeAll, hw, Option.bind_some]; exact h1, by rw [h2, List.length_set], ?_, ?_⟩
    · intro j hj
      cases j with
      | zero =>
        rw [h4 (i + 0) (fun j _ => by omega)]
        simp only [Nat.add_zero, List.getElem?_cons_zero]
        rw [List.getElem?_set_self (by omega)]
      | succ j =>
        have := h3 j (by simpa using hj)
        rw [show i + (j + 1) = i + 1 + j by omega, this]
        simp
    · intro q hq
      rw [h4 q (fun j hj => by have := hq (j + 1) (by simpa using hj); omega)]
      rw [List.getElem?_set_ne (by have := hq 0 (by simp); omega)]

theorem writeMoles_ok (R n : Nat) (fill : Rat) (hn : n < R) (cs : List Col) : ∀ (a : List Rat) (i : Nat), (i + cs.length) * R ≤ a.length →
    ∃ b, writeMoles R n fill a i cs = some b ∧ b.length = a.length ∧
      (∀ (k : Nat) (c : Col), cs[k]? = some c → b[(i + k) * R + n]? = some (c.moles / fill)) ∧
      ∀ q : Nat, (∀ k, k < cs.length → q ≠ (i + k) * R + n) → b[q]? = a[q]? := by
  induction cs with
  | nil => intro a i _; exact ⟨a, rfl, rfl, fun k c h => absurd h (by simp), fun q _ => rfl⟩
  | cons c cs ih =>
    intro a i h
    simp only [List.length_cons] at h
    have hlt : i * R + n < a.length := by
      have : (i + 1) * R ≤ (i + (cs.length + 1)) * R := Nat.mul_le_mul_right _ (by omega)
      rw [Nat.add_mul, Nat.one_mul] at this
      omega
    have hw : write a (i * R + n) (c.moles / fill) = some (a.set (i * R + n) (c.moles / fill)) := by unfold write; rw [if_pos hlt]
    obtain ⟨b, h1, h2, h3, h4⟩ := ih (a.set (i * R + n) (c.moles / fill)) (i + 1) (by
      rw [List.length_set, show i + 1 + cs.length = i + (cs.length + 1) by omega]; exact h)
    have hdist : ∀ k, i * R + n ≠ (i + 1 + k) * R + n := by
      intro k hk
      have : (i + 1) * R ≤ (i + 1 + k) * R := Nat.mul_le_mul_right _ (by omega)
      rw [Nat.add_mul, Nat.one_mul] at this
      omega
    refine ⟨b, by simp only [writeMoles, hw, Option.bind_some]; exact h1, by rw [h2, List.length_set], ?_, ?_⟩
    · intro k d hk
      cases k with
      | zero =>
        simp only [List.getElem?_cons_zero, Option.some.injEq] at hk
        rw [Nat.add_zero, h4 (i * R + n) (fun k _ => hdist k), List.getElem?_set_self hlt, hk]
      | succ k =>
        have := h3 k d (by simpa using hk)
        rw [show i + (k + 1) = i + 1 + k by omega, this]
    · intro q hq
      rw [h4 q (fun k hk => by have := hq (k + 1) (by simpa using hk); rwa [show i + (k + 1) = i + 1 + k by omega] at this)]
      rw [List.getElem?_set_ne (by have := hq 0 (by simp); rw [Nat.add_zero] at this; omega)]

theorem writeCols_ok (R n : Nat) (fill : Rat) (hn : n < R) (cs : List Col) : ∀ (a : List Rat) (i : Nat), (i + cs.length) * R ≤ a.length →
    (∀ c ∈ cs, c.diff.length = n) →
    ∃ b, writeCols R fill a i cs = some b ∧ b.length = a.length ∧
      (∀ (k : Nat) (c : Col), cs[k]? = some c → ∀ j, j < n → b[(i + k) * R + j]? = (c.diff[j]?).map (· / fill)) ∧
      ∀ q : Nat, (∀ k, k < cs.length → ∀ j, j < n → q ≠ (i + k) * R + j) → b[q]? = a[q]? := by
  induction cs with
  | nil => intro a i _ _; exact ⟨a, rfl, rfl, fun k c h => absurd h (by simp), fun q _ => rfl⟩
  | cons c cs ih =>
    intro a i h hd
    simp only [List.length_cons] at h
    have hlen : c.diff.length = n := hd c (by simp)
    have hlt : i * R + n < a.length := by
      have : (i + 1) * R ≤ (i + (cs.length + 1)) * R := Nat.mul_le_mul_right _ (by omega)
      rw [Nat.add_mul, Nat.one_mul] at this
      omega
    obtain ⟨a1, w1, w2, w3, w4⟩ := writeAll_ok (c.diff.map (· / fill)) a (i * R) (by rw [List.length_map, hlen]; omega)
    rw [List.length_map, hlen] at w3 w4
    obtain ⟨b, h1, h2, h3, h4⟩ := ih a1 (i + 1) (by
      rw [w2, show i + 1 + cs.length = i + (cs.length + 1) by omega]; exact h) (fun d hd' => hd d (List.mem_cons_of_mem _ hd'))
    have hdist : ∀ k j j', j < n → i * R + j ≠ (i + 1 + k) * R + j' := by
      intro k j j' hj hk
      have : (i + 1) * R ≤ (i + 1 + k) * R := Nat.mul_le_mul_right _ (by omega)
      rw [Nat.add_mul, Nat.one_mul] at this
      omega
    refine ⟨b, by simp only [writeCols, w1, Option.bind_some]; exact h1, by rw [h2, w2], ?_, ?_⟩
    · intro k d hk j hj
      cases k with
      | zero =>
        simp only [List.getElem?_cons_zero, Option.some.injEq] at hk
        rw [Nat.add_zero, h4 (i * R + j) (fun k _ j' _ => hdist k j j' hj), w3 j hj, List.getElem?_map, hk]
      | succ k =>
        have := h3 k d (by simpa using hk) j hj
        rw [show i + (k + 1) = i + 1 + k by omega, this]
    · intro q hq
      rw [h4 q (fun k hk j hj => by
        have := hq (k + 1) (by simpa using hk) j hj; rwa [show i + (k + 1) = i + 1 + k by omega] at this)]
      exact w4 q (fun j hj => by have := hq 0 (by simp) j hj; rwa [Nat.add_zero] at this)

theorem sumR (R n i k j j' : Nat) (hR : n < R) (hj : j ≤ n) (hj' : j' ≤ n) (h : i * R + j = k * R + j') : i = k ∧ j = j' := by
  have hik : i = k := by
    rcases Nat.lt_trichotomy i k with hlt | heq | hgt
    · have : (i + 1) * R ≤ k * R := Nat.mul_le_mul_right _ hlt
      rw [Nat.add_mul, Nat.one_mul] at this
      omega
    · exact heq
    · have : (k + 1) * R ≤ i * R := Nat.mul_le_mul_right _ hgt
      rw [Nat.add_mul, Nat.one_mul] at this
      omega
  subst hik
  exact ⟨rfl, by omega⟩

theorem store_ok (n : Nat) (cs : List Col) (a : List Rat) (rd cd : Nat) (fill : Rat)
    (h2 : 2 ≤ cs.length) (hn : n ≤ rd) (hc : cs.length ≤ cd) (ha : (rd + 1) * cd ≤ a.length)
    (hi : ∀ c ∈ cs, c.initial.length = n) (hf : ∀ c ∈ cs, c.final.length = n) :
    ∃ b, store n cs a rd cd fill = some (true, b) ∧ b.length = a.length ∧
      (∀ (i : Nat) (c : Col), cs[i]? = some c →
        (∀ j, j < n → b[i * (rd + 1) + j]? =
          if i < 2 then c.final[j]? else some (((c.final[j]?).getD 0 - (c.initial[j]?).getD 0) / fill)) ∧
        b[i * (rd + 1) + n]? = some (c.moles / fill)) ∧
      ∀ q : Nat, (∀ i, i < cs.length → ∀ j, j ≤ n → q ≠ i * (rd + 1) + j) → b[q]? = a[q]? := by
  obtain ⟨R, hR⟩ : ∃ R, R = rd + 1 := ⟨_, rfl⟩
  rw [← hR] at ha ⊢
  have hnR : n < R := by omega
  have hlen : cs.length * R ≤ a.length := by
    have : cs.length * R ≤ cd * R := Nat.mul_le_mul_right _ hc
    rw [Nat.mul_comm R cd] at ha
    omega
  obtain ⟨c0, c1, rest, hcs⟩ : ∃ c0 c1 rest, cs = c0 :: c1 :: rest := by
    match cs, h2 with
    | c0 :: c1 :: rest, _ => exact ⟨c0, c1, rest, rfl⟩
  have f0 : c0.final.length = n := hf c0 (by simp [hcs])
  have f1 : c1.final.length = n := hf c1 (by simp [hcs])
  have hl2 : cs.length = rest.length + 2 := by rw [hcs]; rfl
  have h2R : 2 * R ≤ a.length := by
    have : 2 * R ≤ cs.length * R := Nat.mul_le_mul_right _ h2
    omega
  obtain ⟨a1, u1, u2, u3, u4⟩ := writeAll_ok c0.final a 0 (by omega)
  obtain ⟨a2, v1, v2, v3, v4⟩ := writeAll_ok c1.final a1 R (by omega)
  have hdrop : (diffAll cs).drop 2 = diffAll rest := by rw [hcs]; rfl
  have hdl : ∀ c ∈ diffAll rest, c.diff.length = n := by
    intro c hc
    unfold diffAll at hc
    obtain ⟨d, hd, rfl⟩ := List.mem_map.1 hc
    simp [hf d (by simp [hcs, hd]), hi d (by simp [hcs, hd])]
  have hdlen : (diffAll rest).length = rest.length := by simp [diffAll]
  obtain ⟨a3, w1, w2, w3, w4⟩ := writeCols_ok R n fill hnR (diffAll rest) a2 2 (by
    rw [hdlen, v2, u2, Nat.add_comm, ← hl2]; exact hlen) hdl
  obtain ⟨b, x1, x2, x3, x4⟩ := writeMoles_ok R n fill hnR cs a3 0 (by rw [w2, v2, u2, Nat.zero_add]; exact hlen)
  simp only [Nat.zero_add, f0] at u3 u4
  simp only [f1] at v3 v4
  simp only [Nat.zero_add] at x3 x4
  rw [hdlen] at w4
  have hnl : ¬ n > R := by omega
  refine ⟨b, ?_, by rw [x2, w2, v2, u2], ?_, ?_⟩
  · unfold store
    rw [← hR, if_neg (by rw [hcs]; simp), if_neg hnl, if_neg (by omega)]
    rw [hdrop]
    subst hcs
    simp only [u1, v1, w1, x1, Option.bind_some, Option.map_some]
  · intro i c hic
    refine ⟨?_, x3 i c hic⟩
    intro j hj
    have hilt : i < cs.length := by
      obtain ⟨h, _⟩ := List.getElem?_eq_some_iff.1 hic; exact h
    rw [x4 (i * R + j) (fun k _ h => by have := sumR R n i k j n hnR (by omega) (by omega) h; omega)]
    by_cases hi2 : i < 2
    · rw [if_pos hi2]
      rw [w4 (i * R + j) (fun k _ j' hj' h => by have := sumR R n i (2 + k) j j' hnR (by omega) (by omega) h; omega)]
      have : i = 0 ∨ i = 1 := by omega
      rcases this with rfl | rfl
      · have hc0 : c0 = c := by rw [hcs] at hic; simpa using hic
        rw [v4 (0 * R + j) (fun j' _ h => by rw [Nat.zero_mul, Nat.zero_add] at h; omega)]
        rw [Nat.zero_mul, Nat.zero_add, u3 j hj, hc0]
      · have hc1 : c1 = c := by rw [hcs] at hic; simpa using hic
        rw [Nat.one_mul, v3 j hj, hc1]
    · rw [if_neg hi2]
      obtain ⟨k, rfl⟩ : ∃ k, i = 2 + k := ⟨i - 2, by omega⟩
      have hrest : rest[k]? = some c := by
        rw [hcs, Nat.add_comm] at hic
        simpa using hic
      have hdk : (diffAll rest)[k]? = some { c with diff := List.zipWith (fun f i => f - i) c.final c.initial } := by
        unfold diffAll; rw [List.getElem?_map, hrest]; rfl
      rw [w3 k _ hdk j hj]
      have hcm : c ∈ cs := List.mem_of_getElem? hic
      have e1 := hf c hcm
      have e2 := hi c hcm
      simp only
      rw [List.getElem?_zipWith]
      rw [List.getElem?_eq_getElem (by omega), List.getElem?_eq_getElem (by omega)]
      rfl
  · intro q hq
    rw [x4 q (fun k hk h => hq k hk n (Nat.le_refl _) h)]
    rw [w4 q (fun k hk j hj h => hq (2 + k) (by omega) j (by omega) h)]
    rw [v4 q (fun j hj h => hq 1 (by omega) j (by omega) (by rw [Nat.one_mul]; exact h))]
    exact u4 q (fun j hj h => hq 0 (by omega) j (by omega) (by rw [Nat.zero_mul, Nat.zero_add]; exact h))

theorem solFinal_get (db : Db) (rows : Rows) (after : Ents) (nUser : Kind → Int) (cons : Int) (i j : Nat) (hj : j < rows.length) :
    (solFinal db rows after nUser cons i)[j]? = some (if nUser .solution < 0 then 0 else
      match after.solution (if i = 0 then cons else nUser .solution) with
      | none => 0
      | some s => solCell db rows s j) := by
  unfold solFinal
  have z : (zeros rows)[j]? = some 0 := by unfold zeros; rw [List.getElem?_replicate, if_pos hj]
  by_cases hn : nUser .solution < 0
  · simp only [hn, if_true, z]
  · simp only [hn, if_false]
    cases after.solution (if i = 0 then cons else nUser .solution) with
    | none => exact z
    | some s => simp only; rw [List.getElem?_map, List.getElem?_range hj]; rfl

theorem cells_get (db : Db) (rows : Rows) (es : Elts) (j : Nat) (hj : j < rows.length) : (cells db rows es)[j]? = some (cell db rows es j) := by
  unfold cells; rw [List.getElem?_map, List.getElem?_range hj]; rfl

theorem solFinal_length (db : Db) (rows : Rows) (after : Ents) (nUser : Kind → Int) (cons : Int) (i : Nat) :
    (solFinal db rows after nUser cons i).length = rows.length := by
  unfold solFinal
  split_ifs
  · simp [zeros]
  · cases after.solution (nUser .solution) <;> simp_all [zeros]
    all_goals split <;> simp [zeros]
  · split <;> simp [zeros]

/-! Building -/

theorem addComp_sub (rows : Rows) (k : Kind) (cs : List (Col × Text)) (x : Text × Elts × Text) :
    ∃ l, addComp rows k cs x = cs ++ l ∧ ∀ c ∈ l, c = (newCol rows k x.1 x.2.1, x.2.2) := by
  unfold addComp
  split_ifs
  · exact ⟨[], by simp, by simp⟩
  · exact ⟨_, rfl, by simp⟩

theorem addComps_sub (rows : Rows) (k : Kind) (xs : List (Text × Elts × Text)) : ∀ cs : List (Col × Text),
    ∃ l, xs.foldl (addComp rows k) cs = cs ++ l ∧ ∀ c ∈ l, ∃ x ∈ xs, c = (newCol rows k x.1 x.2.1, x.2.2) := by
  induction xs with
  | nil => intro cs; exact ⟨[], by simp, by simp⟩
  | cons x xs ih =>
    intro cs
    obtain ⟨l1, h1, h2⟩ := addComp_sub rows k cs x
    obtain ⟨l2, h3, h4⟩ := ih (cs ++ l1)
    refine ⟨l1 ++ l2, by rw [List.foldl_cons, h1, h3, List.append_assoc], ?_⟩
    intro c hc
    rcases List.mem_append.1 hc with h | h
    · exact ⟨x, by simp, h2 c h⟩
    · obtain ⟨y, hy, rfl⟩ := h4 c h
      exact ⟨y, by simp [hy], rfl⟩

theorem addComp_has (rows : Rows) (k : Kind) (cs : List (Col × Text)) (x : Text × Elts × Text) :
    ∃ c ∈ addComp rows k cs x, c.1.kind = k ∧ c.1.name = x.1 ∧ c.2 = x.2.2 := by
  unfold addComp
  split_ifs with h
  · rw [List.any_eq_true] at h
    obtain ⟨c, hc, h⟩ := h
    simp only [Bool.and_eq_true, beq_iff_eq] at h
    exact ⟨c, List.mem_of_mem_drop hc, h.1.1, h.1.2, h.2⟩
  · exact ⟨_, List.mem_append_right _ (List.mem_singleton.2 rfl), rfl, rfl, rfl⟩

theorem addComps_has (rows : Rows) (k : Kind) (xs : List (Text × Elts × Text)) : ∀ (cs : List (Col × Text)), ∀ x ∈ xs,
    ∃ c ∈ xs.foldl (addComp rows k) cs, c.1.kind = k ∧ c.1.name = x.1 ∧ c.2 = x.2.2 := by
  induction xs with
  | nil => intro cs x hx; simp at hx
  | cons y xs ih =>
    intro cs x hx
    rw [List.foldl_cons]
    rcases List.mem_cons.1 hx with rfl | h
    · obtain ⟨c, hc, h1⟩ := addComp_has rows k cs x
      obtain ⟨l, hl, _⟩ := addComps_sub rows k xs (addComp rows k cs x)
      exact ⟨c, by rw [hl]; exact List.mem_append_left _ hc, h1⟩
    · exact ih _ x h

/-- No two columns of one kind, name and alternative formula. -/
def Distinct (k : Kind) (cs : List (Col × Text)) : Prop :=
  cs.Pairwise fun c d => ¬ (c.1.kind = k ∧ d.1.kind = k ∧ c.1.name = d.1.name ∧ c.2 = d.2)

theorem addComp_distinct (rows : Rows) (k : Kind) (c0 : Col × Text) (cs : List (Col × Text)) (x : Text × Elts × Text)
    (h0 : c0.1.kind ≠ k) (h : Distinct k (c0 :: cs)) : ∃ ds, addComp rows k (c0 :: cs) x = c0 :: ds ∧ Distinct k (c0 :: ds) := by
  unfold addComp
  split_ifs with hc
  · exact ⟨cs, rfl, h⟩
  · refine ⟨cs ++ [(newCol rows k x.1 x.2.1, x.2.2)], rfl, ?_⟩
    unfold Distinct at h ⊢
    rw [← List.cons_append, List.pairwise_append]
    refine ⟨h, by simp, ?_⟩
    intro a ha b hb
    rw [List.mem_singleton] at hb
    subst hb
    rintro ⟨h1, _, h3, h4⟩
    rcases List.mem_cons.1 ha with rfl | ha
    · exact h0 h1
    · apply hc
      rw [List.any_eq_true]
      exact ⟨a, by simpa using ha, by simp only [Bool.and_eq_true, beq_iff_eq]; exact ⟨⟨h1, h3⟩, h4⟩⟩

theorem addComps_distinct (rows : Rows) (k : Kind) (c0 : Col × Text) (h0 : c0.1.kind ≠ k) (xs : List (Text × Elts × Text)) :
    ∀ cs : List (Col × Text), Distinct k (c0 :: cs) → ∃ ds, xs.foldl (addComp rows k) (c0 :: cs) = c0 :: ds ∧ Distinct k (c0 :: ds) := by
  induction xs with
  | nil => intro cs h; exact ⟨cs, rfl, h⟩
  | cons x xs ih =>
    intro cs h
    obtain ⟨ds, h1, h2⟩ := addComp_distinct rows k c0 cs x h0 h
    rw [List.foldl_cons, h1]
    exact ih ds h2

/-- Columns of another kind do not matter. -/
theorem distinct_append (k k' : Kind) (hk : k ≠ k') (cs l : List (Col × Text)) (h : Distinct k cs) (hl : ∀ c ∈ l, c.1.kind = k') :
    Distinct k (cs ++ l) := by
  unfold Distinct at h ⊢
  rw [List.pairwise_append]
  refine ⟨h, ?_, ?_⟩
  · rw [List.pairwise_iff_forall_sublist]
    intro a b hs
    rintro ⟨h1, _⟩
    exact hk (h1.symm.trans (hl a (hs.subset (by simp))))
  · intro a _ b hb
    rintro ⟨_, h2, _⟩
    exact hk (h2.symm.trans (hl b hb))

end Verif.Tally
