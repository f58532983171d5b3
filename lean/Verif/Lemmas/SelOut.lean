import Verif.Spec.SelOut
import Mathlib.Tactic.SplitIfs
import Mathlib.Tactic.ByContra
/- Helper lemmas for the selected-output table. -/
namespace Verif.SelOut

theorem mem_firsts (ks : List (List Char)) (x : List Char) : x ∈ firsts ks ↔ x ∈ ks := by
  induction ks with
  | nil => simp [firsts]
  | cons k ks ih =>
    simp only [firsts, List.mem_cons, List.mem_filter, ih, decide_eq_true_eq]
    constructor
    · rintro (h | ⟨h, _⟩)
      · exact .inl h
      · exact .inr h
    · rintro (h | h)
      · exact .inl h
      · by_cases he : x = k
        · exact .inl he
        · exact .inr ⟨h, he⟩

theorem nodup_firsts (ks : List (List Char)) : (firsts ks).Nodup := by
  induction ks with
  | nil => simp [firsts]
  | cons k ks ih =>
    rw [firsts, List.nodup_cons]
    exact ⟨by simp, ih.filter _⟩

theorem firsts_append (ks : List (List Char)) (k : List Char) :
    firsts (ks ++ [k]) = if k ∈ ks then firsts ks else firsts ks ++ [k] := by
  induction ks with
  | nil => simp [firsts]
  | cons a ks ih =>
    simp only [List.cons_append, firsts, ih]
    by_cases h : k ∈ ks
    · simp [h]
    · by_cases ha : k = a
      · subst ha
        simp [h]
      · simp [h, ha, List.filter_append]

theorem firsts_nodup {ks : List (List Char)} (h : ks.Nodup) : firsts ks = ks := by
  induction ks with
  | nil => rfl
  | cons k ks ih =>
    rw [List.nodup_cons] at h
    rw [firsts, ih h.2, List.filter_eq_self.2]
    intro x hx
    have : x ≠ k := fun e => h.1 (e ▸ hx)
    simpa using this

theorem firsts_append_subset (a b : List (List Char)) (h : ∀ x ∈ b, x ∈ a) : firsts (a ++ b) = firsts a := by
  induction b generalizing a with
  | nil => simp
  | cons x b ih =>
    have : a ++ x :: b = (a ++ [x]) ++ b := by simp
    rw [this, ih _ (fun y hy => by simp [h y (by simp [hy])]), firsts_append, if_pos (h x (by simp))]

theorem cellOf_append {F} (row : List (List Char × Cell F)) (k : List Char) (v : Cell F) (h : List Char) :
    cellOf (row ++ [(k, v)]) h = if h = k then v else cellOf row h := by
  unfold cellOf
  simp only [List.reverse_append, List.reverse_cons, List.reverse_nil, List.nil_append, List.cons_append,
    List.find?_cons]
  by_cases e : k = h
  · subst e; simp
  · have e' : ¬ h = k := fun x => e x.symm
    simp [e, e']

theorem cellOf_none {F} (row : List (List Char × Cell F)) (h : List Char) (hn : h ∉ row.map (·.1)) :
    cellOf row h = .empty := by
  unfold cellOf
  have : row.reverse.find? (fun e => e.1 = h) = none := by
    rw [List.find?_eq_none]
    intro x hx
    simp only [decide_eq_true_eq]
    rintro rfl
    exact hn (List.mem_map.2 ⟨x, by simpa using hx, rfl⟩)
  rw [this]

/-- Column of heading `h`. -/
def colSpec {F} (l : Log F) (h : List Char) : List (Cell F) :=
  l.done.map (cellOf · h) ++ (if h ∈ l.cur.map (·.1) then [cellOf l.cur h] else [])

/-- The table represents the log. -/
structure Rep {F} (t : Table F) (l : Log F) : Prop where
  heads : t.heads = l.heads
  map : t.colOf = l.heads.zipIdx
  rows : t.nRow = l.done.length
  cols : t.cols = l.heads.map (colSpec l)
  start : l.heads = [] → l.done = []

theorem keys_mem {F} (l : Log F) (k : List Char) :
    k ∈ l.heads ↔ (∃ r ∈ l.done, k ∈ r.map (·.1)) ∨ k ∈ l.cur.map (·.1) := by
  unfold Log.heads
  rw [mem_firsts, List.map_append, List.mem_append, List.map_flatten, List.mem_flatten]
  constructor
  · rintro (⟨r, hr, hk⟩ | h)
    · obtain ⟨r', hr', rfl⟩ := List.mem_map.1 hr
      exact .inl ⟨r', hr', hk⟩
    · exact .inr h
  · rintro (⟨r, hr, hk⟩ | h)
    · exact .inl ⟨_, List.mem_map.2 ⟨r, hr, rfl⟩, hk⟩
    · exact .inr h

theorem heads_push {F} (l : Log F) (k : List Char) (v : Cell F) :
    (l.step (.push k v)).heads = if k ∈ l.heads then l.heads else l.heads ++ [k] := by
  have : (l.step (.push k v)).heads = firsts ((l.done.flatten ++ l.cur).map (·.1) ++ [k]) := by
    simp [Log.step, Log.heads]
  rw [this, firsts_append]
  have hm : k ∈ l.heads ↔ k ∈ (l.done.flatten ++ l.cur).map (·.1) := mem_firsts _ _
  by_cases h : k ∈ l.heads
  · rw [if_pos h, if_pos (hm.1 h)]; rfl
  · rw [if_neg h, if_neg (fun x => h (hm.2 x))]; rfl

theorem findCol_zipIdx (hs : List (List Char)) (hn : hs.Nodup) (n : Nat) (c : Nat) (k : List Char)
    (h : hs[c]? = some k) : findCol (hs.zipIdx n) k = some (n + c) := by
  induction hs generalizing n c with
  | nil => simp at h
  | cons a hs ih =>
    rw [List.nodup_cons] at hn
    unfold findCol at ih ⊢
    cases c with
    | zero =>
      simp at h; subst h
      simp
    | succ c =>
      have h' : hs[c]? = some k := by simpa using h
      have hne : ¬ a = k := fun e => hn.1 (e ▸ List.mem_of_getElem? h')
      have := ih hn.2 (n + 1) c h'
      simp only [List.zipIdx_cons, List.find?_cons, hne, decide_false]
      rw [this]; congr 1; omega

theorem findCol_none (hs : List (List Char)) (n : Nat) (k : List Char) (h : k ∉ hs) :
    findCol (hs.zipIdx n) k = none := by
  unfold findCol
  have : (hs.zipIdx n).find? (fun e => e.1 = k) = none := by
    rw [List.find?_eq_none]
    intro x hx
    simp only [decide_eq_true_eq]
    rintro rfl
    exact h (List.fst_mem_of_mem_zipIdx hx)
  rw [this]; rfl

theorem set_map {α β} (hs : List α) (hn : hs.Nodup) (f g : α → β) (c : Nat) (k : α) (h : hs[c]? = some k)
    (hg : ∀ x ∈ hs, x ≠ k → g x = f x) : (hs.map f).set c (g k) = hs.map g := by
  apply List.ext_getElem?
  intro i
  rw [List.getElem?_map]
  by_cases hi : i = c
  · subst hi
    rw [List.getElem?_set_self', List.getElem?_map, h]
    rfl
  · rw [List.getElem?_set_ne (by omega), List.getElem?_map]
    rcases hx : hs[i]? with _ | x
    · rfl
    · have hne : x ≠ k := by
        rintro rfl
        have h1 := List.getElem?_eq_some_iff.1 hx
        have h2 := List.getElem?_eq_some_iff.1 h
        obtain ⟨a, ha⟩ := h1
        obtain ⟨b, hb⟩ := h2
        have hpw := List.pairwise_iff_getElem.1 hn
        rcases Nat.lt_or_gt_of_ne hi with h | h
        · exact hpw i c a b h (ha.trans hb.symm)
        · exact hpw c i b a h (hb.trans ha.symm)
      simp [hg x (List.mem_of_getElem? hx) hne]

theorem Rep.nodup {F} {t : Table F} {l : Log F} (_ : Rep t l) : l.heads.Nodup := nodup_firsts _

theorem colSpec_push_ne {F} (l : Log F) (k : List Char) (v : Cell F) (h : List Char) (hne : h ≠ k) :
    colSpec (l.step (.push k v)) h = colSpec l h := by
  have hm : h ∈ (l.cur ++ [(k, v)]).map (·.1) ↔ h ∈ l.cur.map (·.1) := by simp [hne]
  unfold colSpec Log.step
  by_cases hc : h ∈ l.cur.map (·.1)
  · simp only [if_pos hc, if_pos (hm.2 hc), cellOf_append, if_neg hne]
  · simp only [if_neg hc, if_neg (fun x => hc (hm.1 x))]

theorem colSpec_push_self {F} (l : Log F) (k : List Char) (v : Cell F) :
    colSpec (l.step (.push k v)) k = l.done.map (cellOf · k) ++ [v] := by
  simp [colSpec, Log.step, cellOf_append]

theorem rep_push {F} {t : Table F} {l : Log F} (h : Rep t l) (k : List Char) (v : Cell F) :
    ∃ t', pushBack t k v = some t' ∧ Rep t' (l.step (.push k v)) := by
  unfold pushBack
  by_cases hk : k ∈ l.heads
  · obtain ⟨c, hc⟩ := List.mem_iff_getElem?.1 hk
    have hf : findCol t.colOf k = some c := by
      rw [h.map]; simpa using findCol_zipIdx l.heads h.nodup 0 c k hc
    have hcol : t.cols[c]? = some (colSpec l k) := by rw [h.cols, List.getElem?_map, hc]; rfl
    have hheads : (l.step (.push k v)).heads = l.heads := by rw [heads_push, if_pos hk]
    have hcols : ∀ y, y = colSpec (l.step (.push k v)) k →
        t.cols.set c y = (l.step (.push k v)).heads.map (colSpec (l.step (.push k v))) := by
      rintro y rfl
      rw [hheads, h.cols]
      exact set_map l.heads h.nodup _ _ c k hc (fun x _ hx => colSpec_push_ne l k v x hx)
    rw [hf]
    simp only [hcol]
    by_cases hp : k ∈ l.cur.map (·.1)
    · have hlen : (colSpec l k).length = t.nRow + 1 := by simp [colSpec, hp, h.rows]
      rw [if_neg (by omega), if_pos (by omega)]
      refine ⟨_, rfl, ?_, ?_, ?_, hcols _ ?_, ?_⟩
      · rw [hheads]; exact h.heads
      · rw [hheads]; exact h.map
      · exact h.rows
      · rw [colSpec_push_self, colSpec, if_pos hp, h.rows]
        rw [List.set_append_right _ _ (by simp)]
        simp
      · rw [hheads]; exact h.start
    · have hlen : (colSpec l k).length = t.nRow := by simp [colSpec, hp, h.rows]
      rw [if_pos hlen]
      refine ⟨_, rfl, ?_, ?_, ?_, hcols _ ?_, ?_⟩
      · rw [hheads]; exact h.heads
      · rw [hheads]; exact h.map
      · exact h.rows
      · rw [colSpec_push_self, colSpec, if_neg hp, List.append_nil]
      · rw [hheads]; exact h.start
  · have hf : findCol t.colOf k = none := by rw [h.map]; exact findCol_none _ _ _ hk
    have hheads : (l.step (.push k v)).heads = l.heads ++ [k] := by rw [heads_push, if_neg hk]
    rw [hf]
    have hkd := fun hx => hk ((keys_mem l k).2 hx)
    refine ⟨_, rfl, ?_, ?_, ?_, ?_, ?_⟩
    · rw [hheads, ← h.heads]
    · rw [hheads, List.zipIdx_append, ← h.map]
      simp [h.map]
    · exact h.rows
    · dsimp only
      rw [hheads, List.map_append, h.cols]
      congr 1
      · apply List.map_congr_left
        intro x hx
        exact (colSpec_push_ne l k v x (fun e => hk (e ▸ hx))).symm
      · rw [List.map_singleton, colSpec_push_self, h.rows]
        congr 2
        rw [← List.map_const']
        apply List.map_congr_left
        intro r hr
        exact (cellOf_none r k (fun hx => hkd (.inl ⟨r, hr, hx⟩))).symm
    · rw [hheads]; intro hx; simp at hx

theorem heads_nil {F} {t : Table F} {l : Log F} (h : Rep t l) : l.heads = [] ↔ l.done = [] ∧ l.cur = [] := by
  constructor
  · intro hh
    refine ⟨h.start hh, ?_⟩
    rcases hc : l.cur with _ | ⟨e, r⟩
    · rfl
    · have : e.1 ∈ l.heads := (keys_mem l e.1).2 (.inr (by simp [hc]))
      rw [hh] at this; simp at this
  · rintro ⟨h1, h2⟩; simp [Log.heads, h1, h2, firsts]

theorem rep_endRow {F} {t : Table F} {l : Log F} (h : Rep t l) : Rep (endRow t) (l.step .endRow) := by
  unfold endRow colCount Log.step
  by_cases hn : l.heads = []
  · have h2 := (heads_nil h).1 hn
    rw [if_neg (by rw [h.heads, hn]; simp), if_pos h2]
    exact h
  · have h2 : ¬ (l.done = [] ∧ l.cur = []) := fun x => hn ((heads_nil h).2 x)
    rw [if_pos (by rw [h.heads]; simpa using hn), if_neg h2]
    have hh : (⟨l.done ++ [l.cur], []⟩ : Log F).heads = l.heads := by simp [Log.heads]
    refine ⟨?_, ?_, ?_, ?_, ?_⟩
    · rw [hh]; exact h.heads
    · rw [hh]; exact h.map
    · simp [h.rows]
    · rw [hh]
      dsimp only
      rw [h.cols, List.map_map]
      apply List.map_congr_left
      intro k hk
      by_cases hp : k ∈ l.cur.map (·.1)
      · simp [colSpec, hp, padTo, h.rows]
      · simp [colSpec, hp, padTo, h.rows, cellOf_none _ _ hp]
    · rw [hh]; intro hx; exact absurd hx hn

theorem rep_init {F} : Rep (init : Table F) ⟨[], []⟩ :=
  ⟨rfl, rfl, rfl, rfl, fun _ => rfl⟩

theorem run_rep {F} (ops : List (Op F)) : ∀ (t : Table F) (l : Log F), Rep t l →
    ∃ t', run t ops = some t' ∧ Rep t' (ops.foldl Log.step l) := by
  induction ops with
  | nil => intro t l h; exact ⟨t, rfl, h⟩
  | cons o ops ih =>
    intro t l h
    cases o with
    | push k v =>
      obtain ⟨t', h1, h2⟩ := rep_push h k v
      obtain ⟨t'', h3, h4⟩ := ih t' _ h2
      exact ⟨t'', by rw [run, h1]; exact h3, h4⟩
    | endRow => exact ih _ _ (rep_endRow h)
    | clear => exact ih _ _ rep_init

theorem run_append {F} (a : List (Op F)) : ∀ (t : Table F) (b : List (Op F)),
    run t (a ++ b) = (run t a).bind fun t' => run t' b := by
  induction a with
  | nil => intro t b; rfl
  | cons o a ih =>
    intro t b
    cases o with
    | push k v =>
      simp only [List.cons_append, run]
      cases pushBack t k v with
      | none => rfl
      | some t' => exact ih t' b
    | endRow => exact ih _ b
    | clear => exact ih _ b

theorem get_rep {F} {t : Table F} {l : Log F} (h : Rep t l) (ty : Int) (hty : 0 ≤ ty ∧ ty ≤ 4) (row col : Int) :
    get t ty row col = some (l.get row col) := by
  unfold get Log.get
  rw [if_neg (by omega)]
  have hrc : rowCount t = if l.heads = [] then 0 else l.done.length + 1 := by
    unfold rowCount colCount
    rw [h.heads, h.rows]
    by_cases hn : l.heads = [] <;> simp [hn]
  have hcc : colCount t = l.heads.length := by unfold colCount; rw [h.heads]
  rw [hrc, hcc]
  by_cases hr : row < 0
  · rw [if_pos (.inr hr), if_pos hr]
  · rw [if_neg hr]
    by_cases hn : l.heads = []
    · rw [if_pos hn, if_pos (.inl (by omega))]
      by_cases hc : col < 0
      · simp [hc, hn]
      · simp [hc, hn]
    · rw [if_neg hn]
      by_cases hr2 : row ≤ l.done.length
      · rw [if_neg (by omega)]
        by_cases hc : col < 0
        · rw [if_pos (.inr hc), if_pos hc, if_pos ⟨hn, hr2⟩]
        · rw [if_neg hc]
          by_cases hc2 : col ≥ (l.heads.length : Int)
          · rw [if_pos (.inl hc2)]
            have : l.heads[col.toNat]? = none := List.getElem?_eq_none (by omega)
            simp only [this, if_pos (show l.heads ≠ [] ∧ row ≤ l.done.length from ⟨hn, hr2⟩)]
          · rw [if_neg (by omega)]
            have hlt : col.toNat < l.heads.length := by omega
            have hg : l.heads[col.toNat]? = some l.heads[col.toNat] := List.getElem?_eq_getElem hlt
            by_cases h0 : row = 0
            · rw [if_neg (by omega)]
              simp only [h.heads, hg, if_pos h0]
            · rw [if_pos h0]
              have hcol : t.cols[col.toNat]? = some (colSpec l l.heads[col.toNat]) := by
                rw [h.cols, List.getElem?_map, hg]; rfl
              have hlt2 : row.toNat - 1 < l.done.length := by omega
              have hd : l.done[row.toNat - 1]? = some l.done[row.toNat - 1] := List.getElem?_eq_getElem hlt2
              have hcell : (colSpec l l.heads[col.toNat])[(row - 1).toNat]? =
                  some (cellOf l.done[row.toNat - 1] l.heads[col.toNat]) := by
                have : (row - 1).toNat = row.toNat - 1 := by omega
                rw [this, colSpec, List.getElem?_append_left (by simpa using hlt2), List.getElem?_map, hd]
                rfl
              simp only [hcol, hcell, hg, if_neg h0, hd]
      · rw [if_pos (.inl (by omega))]
        have hne : ¬ (l.heads ≠ [] ∧ row ≤ l.done.length) := fun x => hr2 x.2
        by_cases hc : col < 0
        · rw [if_pos hc, if_neg hne]
        · rw [if_neg hc]
          rcases l.heads[col.toNat]? with _ | hd
          · simp only [if_neg hne]
          · simp only
            rw [if_neg (by omega)]
            have : l.done[row.toNat - 1]? = none := List.getElem?_eq_none (by omega)
            simp only [this]

/-! Serialization -/

def longsOf {F} : Cell F → List Int
  | .empty => []
  | .error r => [r]
  | .long n => [n]
  | .dbl _ => []
  | .str s => [(s.length : Int)]

def dblsOf {F} : Cell F → List F
  | .dbl x => [x]
  | _ => []

def strOf {F} : Cell F → List Char
  | .str s => s
  | _ => []

theorem packHeads {F} (hs : List (List Char)) : ∀ p : Packed F, hs.foldl packHead p =
    ⟨p.types, p.longs ++ hs.map (fun h => (h.length : Int)), p.doubles, p.strings ++ hs.flatten⟩ := by
  induction hs with
  | nil => intro p; simp
  | cons h hs ih => intro p; rw [List.foldl_cons, ih]; simp [packHead]

theorem packCell_eq {F} (p : Packed F) (v : Cell F) : packCell p v =
    ⟨p.types ++ [v.type], p.longs ++ longsOf v, p.doubles ++ dblsOf v, p.strings ++ strOf v⟩ := by
  cases v <;> simp [packCell, Cell.type, longsOf, dblsOf, strOf]

theorem packCols_eq {F} (row : Nat) (cols : List (List (Cell F))) (vs : List (Cell F)) :
    ∀ p : Packed F, cols.map (fun c => c[row]?) = vs.map some →
      packCols row p cols = some ⟨p.types ++ vs.map Cell.type, p.longs ++ vs.flatMap longsOf,
        p.doubles ++ vs.flatMap dblsOf, p.strings ++ vs.flatMap strOf⟩ := by
  induction cols generalizing vs with
  | nil =>
    intro p h
    cases vs with
    | nil => simp [packCols]
    | cons => simp at h
  | cons c cs ih =>
    intro p h
    cases vs with
    | nil => simp at h
    | cons v vs =>
      simp only [List.map_cons, List.cons.injEq] at h
      rw [packCols, h.1]
      dsimp only
      rw [ih vs _ h.2, packCell_eq]
      simp

theorem readHeads_eq {F} (hs : List (List Char)) : ∀ (p : Packed F) (q : Pos) (A B : List Int) (S T : List Char),
    p.longs = A ++ hs.map (fun h => (h.length : Int)) ++ B → A.length = q.longs →
    p.strings = S ++ hs.flatten ++ T → S.length = q.strings →
    readHeads p hs.length q = some (hs, ⟨q.types, q.longs + hs.length, q.doubles, q.strings + hs.flatten.length⟩) := by
  induction hs with
  | nil => intro p q A B S T _ _ _ _; simp [readHeads]
  | cons h hs ih =>
    intro p q A B S T hl hA hs' hS
    rw [List.length_cons, readHeads]
    have h1 : p.longs[q.longs]? = some (h.length : Int) := by
      rw [hl, ← hA, List.append_assoc, List.getElem?_append_right (Nat.le_refl _)]
      simp
    have h2 : (p.strings.drop q.strings).take ((h.length : Int).toNat) = h := by
      rw [hs', ← hS, List.append_assoc, List.drop_left' rfl, List.flatten_cons, List.append_assoc]
      exact List.take_left' rfl
    simp only [h1]
    have := ih p { q with longs := q.longs + 1, strings := q.strings + ((h.length : Int)).toNat }
      (A ++ [(h.length : Int)]) B (S ++ h) T (by rw [hl]; simp) (by simp [hA]) (by rw [hs']; simp) (by simp [hS])
    simp only [this, h2]
    simp
    omega

theorem readCell_eq {F} (p : Packed F) (q : Pos) (v : Cell F) (A B : List Int) (C D : List Int) (X Y : List F)
    (S T : List Char) (hty : p.types = A ++ v.type :: B) (hA : A.length = q.types)
    (hl : p.longs = C ++ longsOf v ++ D) (hC : C.length = q.longs)
    (hd : p.doubles = X ++ dblsOf v ++ Y) (hX : X.length = q.doubles)
    (hs : p.strings = S ++ strOf v ++ T) (hS : S.length = q.strings) :
    readCell p q = some (v, ⟨q.types + 1, q.longs + (longsOf v).length, q.doubles + (dblsOf v).length,
      q.strings + (strOf v).length⟩) := by
  unfold readCell
  have h1 : p.types[q.types]? = some v.type := by
    rw [hty, ← hA, List.getElem?_append_right (Nat.le_refl _)]; simp
  have hlong : ∀ n, longsOf v = [n] → p.longs[q.longs]? = some n := by
    intro n hn
    rw [hl, ← hC, hn, List.append_assoc, List.getElem?_append_right (Nat.le_refl _)]; simp
  simp only [h1]
  cases v with
  | empty => simp [Cell.type, longsOf, dblsOf, strOf]
  | error r =>
    simp only [Cell.type, hlong r rfl]
    simp [longsOf, dblsOf, strOf]
  | long n =>
    simp only [Cell.type, hlong n rfl]
    simp [longsOf, dblsOf, strOf]
  | dbl x =>
    have : p.doubles[q.doubles]? = some x := by
      rw [hd, ← hX, List.append_assoc, List.getElem?_append_right (Nat.le_refl _)]; simp [dblsOf]
    simp [Cell.type, this, longsOf, dblsOf, strOf]
  | str s =>
    simp only [Cell.type, hlong _ rfl]
    have : (p.strings.drop q.strings).take ((s.length : Int).toNat) = s := by
      rw [hs, ← hS, List.append_assoc, List.drop_left' rfl]
      exact List.take_left' rfl
    simp only [this]
    simp [longsOf, dblsOf, strOf]

theorem readCols_eq {F} (hs : List (List Char)) : ∀ (vs : List (Cell F)) (p : Packed F) (q : Pos) (t : Table F)
    (A C : List Int) (X : List F) (S : List Char), hs.length = vs.length →
    p.types = A ++ vs.map Cell.type → A.length = q.types →
    p.longs = C ++ vs.flatMap longsOf → C.length = q.longs →
    p.doubles = X ++ vs.flatMap dblsOf → X.length = q.doubles →
    p.strings = S ++ vs.flatMap strOf → S.length = q.strings →
    readCols p t q hs = run t ((hs.zip vs).map fun e => .push e.1 e.2) := by
  induction hs with
  | nil => intros; simp [readCols, run]
  | cons h hs ih =>
    intro vs p q t A C X S hlen hty hA hl hC hd hX hs' hS
    cases vs with
    | nil => simp at hlen
    | cons v vs =>
      rw [readCols]
      have := readCell_eq p q v A (vs.map Cell.type) C (vs.flatMap longsOf) X (vs.flatMap dblsOf) S (vs.flatMap strOf)
        (by rw [hty]; simp) hA (by rw [hl]; simp) hC (by rw [hd]; simp) hX (by rw [hs']; simp) hS
      simp only [this, List.zip_cons_cons, List.map_cons, run]
      cases pushBack t h v with
      | none => rfl
      | some t' =>
        exact ih vs p _ t' (A ++ [v.type]) (C ++ longsOf v) (X ++ dblsOf v) (S ++ strOf v) (by simpa using hlen)
          (by rw [hty]; simp) (by simp [hA]) (by rw [hl]; simp) (by simp [hC]) (by rw [hd]; simp) (by simp [hX])
          (by rw [hs']; simp) (by simp [hS])

/-- Pushing a complete row. -/
def rowOps {F} (hs : List (List Char)) (vs : List (Cell F)) : List (Op F) :=
  ((hs.zip vs).map fun e => .push e.1 e.2) ++ [.endRow]

theorem deSerialize_serialize {F} (t0 : Table F) (row : Nat) (vs : List (Cell F)) (t : Table F)
    (hv : t0.cols.map (fun c => c[row]?) = vs.map some) (hc : t0.heads.length = t0.cols.length) :
    (serialize t0 row).bind (deSerialize t) = run t (rowOps t0.heads vs) := by
  have hlen : t0.heads.length = vs.length := by
    have := congrArg List.length hv
    simp at this; omega
  unfold serialize
  rw [packHeads, packCols_eq row t0.cols vs _ hv]
  simp only [Option.bind_some]
  unfold deSerialize
  simp only [List.cons_append, List.nil_append, List.getElem?_cons_succ, List.getElem?_cons_zero]
  have h1 := readHeads_eq t0.heads (F := F)
    ⟨[] ++ vs.map Cell.type, [1, (t0.heads.length : Int)] ++ t0.heads.map (fun h => (h.length : Int)) ++ vs.flatMap longsOf,
      [] ++ vs.flatMap dblsOf, [] ++ t0.heads.flatten ++ vs.flatMap strOf⟩ ⟨0, 2, 0, 0⟩
    [1, (t0.heads.length : Int)] (vs.flatMap longsOf) [] (vs.flatMap strOf) rfl rfl rfl rfl
  simp only [List.nil_append, List.cons_append] at h1
  simp only [Int.toNat_natCast, h1]
  have h2 := readCols_eq t0.heads vs
    ⟨vs.map Cell.type, 1 :: (t0.heads.length : Int) :: (t0.heads.map (fun h => (h.length : Int)) ++ vs.flatMap longsOf),
      vs.flatMap dblsOf, t0.heads.flatten ++ vs.flatMap strOf⟩
    ⟨0, 2 + t0.heads.length, 0, 0 + t0.heads.flatten.length⟩ t [] (1 :: (t0.heads.length : Int) :: t0.heads.map (fun h => (h.length : Int))) []
    t0.heads.flatten hlen rfl rfl (by simp) (by simp; omega) rfl rfl rfl (by simp)
  rw [h2]
  unfold rowOps
  rw [run_append]
  cases run t ((t0.heads.zip vs).map fun e => Op.push e.1 e.2) <;> rfl

/-- Values of finished row `r` in the order of the headings. -/
def rowVals {F} (l : Log F) (r : List (List Char × Cell F)) : List (Cell F) := l.heads.map (cellOf r)

theorem rep_row {F} {t : Table F} {l : Log F} (h : Rep t l) (i : Nat) (r : List (List Char × Cell F))
    (hr : l.done[i]? = some r) : t.cols.map (fun c => c[i]?) = (rowVals l r).map some := by
  rw [h.cols, rowVals, List.map_map, List.map_map]
  apply List.map_congr_left
  intro k _
  have hlt : i < l.done.length := (List.getElem?_eq_some_iff.1 hr).1
  simp only [Function.comp, colSpec]
  rw [List.getElem?_append_left (by simpa using hlt), List.getElem?_map, hr]
  rfl

theorem foldl_push {F} (es : List (List Char × Cell F)) : ∀ l : Log F,
    (es.map fun e => (Op.push e.1 e.2 : Op F)).foldl Log.step l = ⟨l.done, l.cur ++ es⟩ := by
  induction es with
  | nil => intro l; simp
  | cons e es ih => intro l; rw [List.map_cons, List.foldl_cons, ih]; simp [Log.step]

theorem foldl_rowOps {F} (hs : List (List Char)) (vs : List (Cell F)) (D : List (List (List Char × Cell F)))
    (hne : hs.zip vs ≠ []) :
    (rowOps hs vs).foldl Log.step ⟨D, []⟩ = ⟨D ++ [hs.zip vs], []⟩ := by
  unfold rowOps
  rw [List.foldl_append, foldl_push]
  simp [Log.step, hne]

theorem cellOf_zip {F} (hs : List (List Char)) (f : List Char → Cell F) (h : List Char) (hm : h ∈ hs) :
    cellOf (hs.zip (hs.map f)) h = f h := by
  unfold cellOf
  have hz : hs.zip (hs.map f) = hs.map fun k => (k, f k) := by
    induction hs with
    | nil => rfl
    | cons a hs ih =>
      by_cases hh : h ∈ hs
      · simp [ih hh]
      · simp only [List.map_cons, List.zip_cons_cons, List.cons.injEq, true_and]
        clear ih hm hh
        induction hs with
        | nil => rfl
        | cons b hs ih => simp [ih]
  rw [hz, ← List.map_reverse, List.find?_map]
  have : (hs.reverse.find? ((fun e : List Char × Cell F => decide (e.1 = h)) ∘ fun k => (k, f k))) = some h := by
    have hm' : h ∈ hs.reverse := by simpa using hm
    generalize hs.reverse = rv at hm' ⊢
    induction rv with
    | nil => simp at hm'
    | cons a l ih =>
      rw [List.find?_cons]
      by_cases e : a = h
      · simp [e]
      · simp only [Function.comp, e, decide_false]
        rcases List.mem_cons.1 hm' with rfl | hm'
        · exact absurd rfl e
        · exact ih hm'
  rw [this]
  rfl

theorem restore_run {F} (t0 : Table F) (l : Log F) (h : Rep t0 l) : ∀ (is : List Nat) (t : Table F)
    (rs : List (List (List Char × Cell F))), is.map (fun i => l.done[i]?) = rs.map some →
    restore t0 is t = run t (rs.flatMap fun r => rowOps l.heads (rowVals l r)) := by
  intro is
  induction is with
  | nil =>
    intro t rs hr
    cases rs with
    | nil => rfl
    | cons => simp at hr
  | cons i is ih =>
    intro t rs hr
    cases rs with
    | nil => simp at hr
    | cons r rs =>
      simp only [List.map_cons, List.cons.injEq] at hr
      rw [restore, deSerialize_serialize t0 i (rowVals l r) t (rep_row h i r hr.1)
        (by rw [h.heads, h.cols]; simp), h.heads, List.flatMap_cons, run_append]
      cases run t (rowOps l.heads (rowVals l r)) with
      | none => rfl
      | some t' => exact ih t' rs hr.2

theorem zip_ne {F} (l : Log F) (r : List (List Char × Cell F)) (hne : l.heads ≠ []) :
    l.heads.zip (rowVals l r) ≠ [] := by
  unfold rowVals
  rcases hh : l.heads with _ | ⟨a, b⟩
  · exact absurd hh hne
  · simp

theorem foldl_rows {F} (l : Log F) (hne : l.heads ≠ []) (rs : List (List (List Char × Cell F))) :
    ∀ D, (rs.flatMap fun r => rowOps l.heads (rowVals l r)).foldl Log.step ⟨D, []⟩ =
      ⟨D ++ rs.map (fun r => l.heads.zip (rowVals l r)), []⟩ := by
  induction rs with
  | nil => intro D; simp
  | cons r rs ih =>
    intro D
    rw [List.flatMap_cons, List.foldl_append, foldl_rowOps _ _ _ (zip_ne l r hne), ih]
    simp

theorem zip_keys {F} (l : Log F) (r : List (List Char × Cell F)) :
    (l.heads.zip (rowVals l r)).map (·.1) = l.heads := by
  unfold rowVals
  rw [show (fun x : List Char × Cell F => x.1) = Prod.fst from rfl, List.map_fst_zip]
  simp

end Verif.SelOut
