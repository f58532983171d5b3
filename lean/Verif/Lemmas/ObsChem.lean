import Verif.Spec.ObsChem
import Mathlib.Data.List.Nodup
import Mathlib.Tactic.SplitIfs
import Mathlib.Tactic.ByContra
/-
Lemmas for C97 to C102.
-/
namespace Verif.ObsChem

/-! ### Words -/

theorem trim_noblank {w : Text} (h : ∀ c, w.getLast? = some c → c ≠ ' ') : trim w = w := by
  unfold trim
  rcases List.eq_nil_or_concat w with rfl | ⟨a, c, rfl⟩
  · rfl
  · have := h c (by simp)
    simp [List.dropWhile_cons, this]

theorem IsWord.last {w : Text} (h : IsWord w) : ∀ c, w.getLast? = some c → c ≠ ' ' := by
  rintro c hc rfl
  exact h.2.1 (List.mem_of_getLast? hc)

theorem line_cons {w : Text} {r : List Text} (h : r ≠ []) : line (w :: r) = w ++ ' ' :: line r := by
  cases r with
  | nil => exact absurd rfl h
  | cons a r => rfl

theorem line_last {ws : List Text} (h : ∀ w ∈ ws, IsWord w) : ∀ c, (line ws).getLast? = some c → c ≠ ' ' := by
  induction ws with
  | nil => simp [line]
  | cons w r ih =>
    by_cases hr : r = []
    · subst hr; exact (h w (by simp)).last
    · have ih := ih fun w hw => h w (by simp [hw])
      intro c hc
      rw [line_cons hr] at hc
      have hne : line r ≠ [] := by
        obtain ⟨a, r', rfl⟩ := List.exists_cons_of_ne_nil hr
        have := (h a (by simp)).1
        by_cases h' : r' = []
        · subst h'; exact this
        · rw [line_cons h']; simp
      apply ih
      rw [List.getLast?_append_of_ne_nil _ (by simp), List.getLast?_cons] at hc
      obtain ⟨x, hx⟩ := Option.ne_none_iff_exists'.1 (mt List.getLast?_eq_none_iff.1 hne)
      rw [hx] at hc ⊢
      simpa using hc

theorem takeWhile_word {w r : Text} (h : ' ' ∉ w) (hr : r.head? = none ∨ r.head? = some ' ') :
    (w ++ r).takeWhile (· ≠ ' ') = w := by
  rw [List.takeWhile_append_of_pos (by intro c hc; simp; rintro rfl; exact h hc)]
  cases r with
  | nil => simp
  | cons c r => simp at hr; subst hr; simp

/-- The first word of a line. -/
theorem word_append {w r : Text} (h : IsWord w) (hr : r.head? = none ∨ r.head? = some ' ') : word (w ++ r) = w := by
  obtain ⟨a, w', rfl⟩ := List.exists_cons_of_ne_nil h.1
  have : ' ' ∉ w' := fun hc => h.2.1 (by simp [hc])
  unfold word
  rw [List.cons_append, List.headD_cons, List.tail_cons, takeWhile_word this hr, List.take_of_length_le h.2.2,
    trim_noblank h.last]

theorem word_line {w : Text} {r : List Text} (h : IsWord w) : word (line (w :: r)) = w := by
  by_cases hr : r = []
  · subst hr
    have := word_append (r := []) h (by simp)
    simpa [line] using this
  · rw [line_cons hr]; exact word_append h (by simp)

theorem drop_line {w : Text} {r : List Text} : (line (w :: r)).drop (w.length + 1) = line r := by
  by_cases hr : r = []
  · subst hr; simp [line]
  · rw [line_cons hr, List.drop_append]; simp

theorem line_ne {w : Text} {r : List Text} (h : IsWord w) : line (w :: r) ≠ [] := by
  by_cases hr : r = []
  · subst hr; exact h.1
  · rw [line_cons hr]; simp

theorem wordsOf_line {ws : List Text} (h : ∀ w ∈ ws, IsWord w) : wordsOf (line ws) = ws := by
  induction ws with
  | nil => rw [line, wordsOf]; simp
  | cons w r ih =>
    have hw := h w (by simp)
    rw [wordsOf, if_neg (line_ne hw), word_line hw, drop_line, ih fun w hw => h w (by simp [hw])]

theorem pairUp_flat (g : Text) (pairs : List (Text × Text)) : pairUp g (flat pairs) = pairs := by
  induction pairs with
  | nil => rfl
  | cons p r ih =>
    have : flat (p :: r) = p.1 :: p.2 :: flat r := by simp [flat]
    rw [this, pairUp, ih]

theorem pairUp_flat_append (g : Text) (pairs : List (Text × Text)) (l : List Text) :
    pairUp g (flat pairs ++ l) = pairs ++ pairUp g l := by
  induction pairs with
  | nil => rfl
  | cons p r ih =>
    have : flat (p :: r) = p.1 :: p.2 :: flat r := by simp [flat]
    rw [this, List.cons_append, List.cons_append, pairUp, ih]
    rfl

theorem tempc_word : IsWord "tempc".toList := by unfold IsWord; decide
theorem ph_word : IsWord "pH".toList := by unfold IsWord; decide

/-- Reading a line of words. -/
theorem readHeader_words (table : List Species) (sols : List Nat) (g t p : Text) (ws : List Text)
    (h : ∀ w ∈ t :: p :: ws, IsWord w) (hl : (line (t :: p :: ws)).length ≤ 1000) :
    readHeader table sols g (line (t :: p :: ws)) =
      if 100 < (pairUp g ws).length then .ub
      else if t ≠ "tempc".toList ∨ p ≠ "pH".toList then .stop
      else match (pairUp g ws).mapM (checkColumn table) with
        | none => .stop
        | some cols => .ok ⟨cols, sols.map (columnOf cols)⟩ := by
  have ht := h t (by simp)
  have hp := h p (by simp)
  unfold readHeader
  rw [List.take_of_length_le hl, trim_noblank (line_last h)]
  have e : wordsOf (line ws) = ws := wordsOf_line fun w hw => h w (by simp [hw])
  simp only [word_line ht, drop_line, word_line hp, e]
  rfl

/-! ### Tables -/

theorem speciesId_some {table : List Species} {s : Text} {i : Nat} (h : speciesId table s = some i) :
    ∃ t, table[i]? = some t ∧ t.name = s := by
  unfold speciesId at h
  rw [List.findIdx?_eq_some_iff_getElem] at h
  obtain ⟨hi, h1, _⟩ := h
  exact ⟨table[i], by simp [hi], by simpa using h1⟩

theorem speciesId_none {table : List Species} {s : Text} : speciesId table s = none ↔ ∀ t ∈ table, t.name ≠ s := by
  unfold speciesId
  rw [List.findIdx?_eq_none_iff]
  simp

theorem unitId_some {u : Text} {i : Nat} (h : unitId u = some i) : unitNames[i]? = some u := by
  unfold unitId at h
  rw [List.findIdx?_eq_some_iff_getElem] at h
  obtain ⟨hi, h1, _⟩ := h
  simp [hi]; simpa using h1

theorem unitId_none {u : Text} : unitId u = none ↔ u ∉ unitNames := by
  unfold unitId
  rw [List.findIdx?_eq_none_iff]
  constructor
  · intro h hm; simpa using h u hm
  · intro h x hx; simp; rintro rfl; exact h hx

theorem unitId_eq_one {u : Text} : unitId u = some 1 ↔ u = "meq/L".toList := by
  constructor
  · intro h
    have := unitId_some h
    simp only [unitNames, List.getElem?_cons_succ, List.getElem?_cons_zero, Option.some.injEq] at this
    exact this.symm
  · rintro rfl; decide

theorem same_of_name {table : List Species} (hn : (table.map (·.name)).Nodup) {a b : Species} (ha : a ∈ table) (hb : b ∈ table)
    (h : a.name = b.name) : a = b :=
  List.inj_on_of_nodup_map hn ha hb h

/-- A column is accepted exactly if species and unit fit. -/
theorem checkColumn_some {table : List Species} (hn : (table.map (·.name)).Nodup) (p : Text × Text) :
    (∃ c, checkColumn table p = some c) ↔ Accept table p := by
  unfold checkColumn
  cases hs : speciesId table p.1 with
  | none =>
    simp only [reduceCtorEq, exists_false, false_iff]
    rintro ⟨t, ht, hname, -⟩
    exact speciesId_none.1 hs t ht hname
  | some i =>
    obtain ⟨t, hi, hname⟩ := speciesId_some hs
    have htm := List.mem_of_getElem? hi
    cases hu : unitId p.2 with
    | none =>
      simp only [reduceCtorEq, exists_false, false_iff]
      rintro ⟨t, -, -, hm, -⟩
      exact unitId_none.1 hu hm
    | some u =>
      simp only [hi]
      have hm : p.2 ∈ unitNames := by
        by_contra hc; rw [unitId_none.2 hc] at hu; cases hu
      have h1 : u = 1 ↔ p.2 = "meq/L".toList := by
        rw [← unitId_eq_one, hu]; simp
      constructor
      · rintro ⟨c, hc⟩
        refine ⟨t, htm, hname, hm, ?_⟩
        rintro ⟨h2, h3⟩
        rw [if_pos ⟨h3, h1.2 h2⟩] at hc; cases hc
      · rintro ⟨t', ht', hname', -, h3⟩
        have : t' = t := same_of_name hn ht' htm (by rw [hname, hname'])
        subst this
        rw [if_neg (by rintro ⟨h4, h5⟩; exact h3 ⟨h1.1 h5, h4⟩)]
        exact ⟨_, rfl⟩

theorem checkColumn_col {table : List Species} {p : Text × Text} {c : Column} (h : checkColumn table p = some c) :
    speciesId table p.1 = some c.species ∧ ∃ t, table[c.species]? = some t ∧ t.name = p.1 ∧ unitNames[c.unit]? = some p.2 := by
  unfold checkColumn at h
  cases hs : speciesId table p.1 with
  | none => simp [hs] at h
  | some i =>
    cases hu : unitId p.2 with
    | none => simp [hs, hu] at h
    | some u =>
      obtain ⟨t, hi, hname⟩ := speciesId_some hs
      simp only [hs, hu, hi] at h
      split_ifs at h
      cases h
      exact ⟨rfl, t, hi, hname, unitId_some hu⟩

theorem mapM_option_none {α β} {f : α → Option β} {l : List α} : l.mapM f = none ↔ ∃ a ∈ l, f a = none := by
  induction l with
  | nil => simp
  | cons a l ih =>
    cases h1 : f a with
    | none => simp [List.mapM_cons, h1]
    | some b =>
      cases h2 : l.mapM f with
      | none => simp [List.mapM_cons, h1, h2, ← ih]
      | some bs =>
        have := (not_congr ih).1 (by simp [h2])
        simp [List.mapM_cons, h1, h2]
        intro x hx hf
        exact this ⟨x, hx, hf⟩

theorem mapM_option_get {α β} {f : α → Option β} {l : List α} {r : List β} (h : l.mapM f = some r) :
    r.length = l.length ∧ ∀ (i : Nat) a, l[i]? = some a → ∃ b, r[i]? = some b ∧ f a = some b := by
  induction l generalizing r with
  | nil => simp at h; subst h; simp
  | cons a l ih =>
    cases h1 : f a with
    | none => simp [List.mapM_cons, h1] at h
    | some b =>
      cases h2 : l.mapM f with
      | none => simp [List.mapM_cons, h1, h2] at h
      | some bs =>
        simp [List.mapM_cons, h1, h2] at h
        subst h
        obtain ⟨i1, i2⟩ := ih h2
        refine ⟨by simp [i1], ?_⟩
        intro i x hx
        cases i with
        | zero => simp at hx; subst hx; exact ⟨b, by simp, h1⟩
        | succ i => simpa using i2 i x (by simpa using hx)

/-! ### Columns of solutes -/

theorem columnOf_append (cols : List Column) (c : Column) (sol : Nat) :
    columnOf (cols ++ [c]) sol = if c.species = sol then some cols.length else columnOf cols sol := by
  unfold columnOf
  rw [List.length_append, List.length_singleton, List.range_succ, List.foldl_append]
  have e : ∀ (l : List Nat) (v : Option Nat), (∀ i ∈ l, i < cols.length) →
      l.foldl (matchColumn (cols ++ [c]) sol) v = l.foldl (matchColumn cols sol) v := by
    intro l
    induction l with
    | nil => intros; rfl
    | cons i l ih =>
      intro v h
      have : matchColumn (cols ++ [c]) sol v i = matchColumn cols sol v i := by
        unfold matchColumn; rw [List.getElem?_append_left (h i (by simp))]
      rw [List.foldl_cons, List.foldl_cons, this]
      exact ih _ fun j hj => h j (by simp [hj])
  rw [e (List.range cols.length) none (by simp)]
  simp [matchColumn]

theorem snoc_induction {α} {P : List α → Prop} (h0 : P []) (h1 : ∀ l a, P l → P (l ++ [a])) (l : List α) : P l := by
  have : ∀ l : List α, P l.reverse := by
    intro l
    induction l with
    | nil => exact h0
    | cons a l ih => rw [List.reverse_cons]; exact h1 _ _ ih
  have := this l.reverse
  rwa [List.reverse_reverse] at this

theorem columnOf_absent {cols : List Column} {sol : Nat} (h : ∀ c ∈ cols, c.species ≠ sol) : columnOf cols sol = none := by
  induction cols using snoc_induction with
  | h0 => rfl
  | h1 cols c ih =>
    rw [columnOf_append, if_neg (h c (by simp)), ih fun c hc => h c (by simp [hc])]

theorem columnOf_present {pre post : List Column} {c : Column} {sol : Nat} (hc : c.species = sol)
    (h : ∀ c ∈ post, c.species ≠ sol) : columnOf (pre ++ c :: post) sol = some pre.length := by
  induction post using snoc_induction with
  | h0 => rw [columnOf_append, if_pos hc]
  | h1 post d ih =>
    have : pre ++ c :: (post ++ [d]) = (pre ++ c :: post) ++ [d] := by simp
    rw [this, columnOf_append, if_neg (h d (by simp)), ih fun c hc => h c (by simp [hc])]

/-- The columns read from accepted pairs mean what is written. -/
theorem reads_ok {table : List Species} {names : List Text} {sols : List Nat} {pairs : List (Text × Text)} {cols : List Column}
    (hs : names.mapM (speciesId table) = some sols) (hc : pairs.mapM (checkColumn table) = some cols) :
    Reads table names pairs ⟨cols, sols.map (columnOf cols)⟩ := by
  obtain ⟨s1, s2⟩ := mapM_option_get hs
  obtain ⟨c1, c2⟩ := mapM_option_get hc
  have key : ∀ (n : Text) (sol : Nat), speciesId table n = some sol → ∀ (p : Text × Text) (c : Column), checkColumn table p = some c →
      (c.species = sol ↔ p.1 = n) := by
    intro n sol hn p c hp
    obtain ⟨k1, -⟩ := checkColumn_col hp
    constructor
    · intro e
      obtain ⟨t, h1, h2⟩ := speciesId_some k1
      obtain ⟨t', h3, h4⟩ := speciesId_some hn
      rw [← e, h1] at h3
      cases h3
      rw [← h2, ← h4]
    · intro e
      rw [e, hn] at k1
      exact (Option.some.inj k1).symm
  refine ⟨c1, ?_, by simp [s1], ?_, ?_⟩
  · intro i p hp
    obtain ⟨c, h1, h2⟩ := c2 i p hp
    obtain ⟨-, t, h3, h4, h5⟩ := checkColumn_col h2
    exact ⟨c, t, h1, h3, h4, h5⟩
  · intro j n pre u post hj hp hpost
    obtain ⟨sol, h1, h2⟩ := s2 j n hj
    subst hp
    rw [List.mapM_append] at hc
    cases e1 : pre.mapM (checkColumn table) with
    | none => simp [e1] at hc
    | some cpre =>
      cases e2 : checkColumn table (n, u) with
      | none => simp [e1, List.mapM_cons, e2] at hc
      | some c =>
        cases e3 : post.mapM (checkColumn table) with
        | none => simp [e1, List.mapM_cons, e2, e3] at hc
        | some cpost =>
          simp [e1, List.mapM_cons, e2, e3] at hc
          subst hc
          have hl := (mapM_option_get e1).1
          simp only [List.getElem?_map, h1, Option.map_some]
          rw [columnOf_present ((key n sol h2 _ c e2).2 rfl), hl]
          intro d hd
          obtain ⟨i, hi⟩ := List.mem_iff_getElem?.1 hd
          obtain ⟨f1, f2⟩ := mapM_option_get e3
          have hlt : i < post.length := by
            rw [← f1]; exact (List.getElem?_eq_some_iff.1 hi).1
          obtain ⟨b, hb, hb'⟩ := f2 i post[i] (by simp [hlt])
          rw [hi] at hb; cases hb
          intro e
          exact hpost _ (List.getElem_mem hlt) ((key n sol h2 _ d hb').1 e)
  · intro j n hj hp
    obtain ⟨sol, h1, h2⟩ := s2 j n hj
    simp only [List.getElem?_map, h1, Option.map_some]
    rw [columnOf_absent]
    intro d hd
    obtain ⟨i, hi⟩ := List.mem_iff_getElem?.1 hd
    have hlt : i < pairs.length := by
      rw [← c1]; exact (List.getElem?_eq_some_iff.1 hi).1
    obtain ⟨b, hb, hb'⟩ := c2 i pairs[i] (by simp [hlt])
    rw [hi] at hb; cases hb
    intro e
    exact hp _ (List.getElem_mem hlt) ((key n sol h2 _ d hb').1 e)

/-! ### The file -/

theorem findHeader_skip {before rest : List Text} {l : Text}
    (hb : ∀ l ∈ before, ¬ "** Species and Units **".toList <+: l) (hl : "** Species and Units **".toList <+: l) :
    findHeader (before ++ l :: rest) = some rest := by
  have key : ∀ l : Text, trim (l.take 23) = "** Species and Units **".toList ↔ "** Species and Units **".toList <+: l := by
    intro l
    constructor
    · intro h
      have h1 : (trim (l.take 23)) <+: l.take 23 := by
        unfold trim
        have := List.dropWhile_suffix (l := (l.take 23).reverse) (· = ' ')
        have := List.reverse_prefix.2 this
        rwa [List.reverse_reverse] at this
      rw [h] at h1
      exact h1.trans (List.take_prefix _ _)
    · rintro ⟨r, rfl⟩
      rw [List.take_append_of_le_length (by decide), List.take_of_length_le (by decide)]
      decide
  induction before with
  | nil => rw [List.nil_append, findHeader, if_pos ((key l).2 hl)]
  | cons b before ih =>
    rw [List.cons_append, findHeader, if_neg (fun h => hb b (by simp) ((key b).1 h))]
    exact ih fun l hl => hb l (by simp [hl])

/-- The module starts with a file of the given layout. -/
theorem init_layout {c : Conf} {g : Text} {lines : List Text} {header : Text} {data : List Text} {sols : List Nat}
    (hp : c.ppt = 1) (he : c.ext = 0 ∨ c.ext = 1) (hs : c.names.mapM (speciesId c.table) = some sols)
    (hf : Layout lines header data) :
    init c g (some lines) = match readHeader c.table sols g header with
      | .ok h => .ok (some (h, data))
      | .stop => .stop
      | .abort => .abort
      | .ub => .ub := by
  obtain ⟨before, rest, three, rfl, h3, hb⟩ := hf.parts
  unfold init
  rw [if_neg (by rw [hp]; decide), if_neg (by rcases he with h | h <;> rw [h] <;> decide), hs]
  simp only
  rw [if_neg (by rw [hp]; decide), findHeader_skip hb ⟨rest, rfl⟩]
  simp only
  cases readHeader c.table sols g header with
  | ok h =>
    simp only
    rw [if_neg (by simp [h3])]
    rw [List.drop_left' h3]
  | stop => rfl
  | abort => rfl
  | ub => rfl

/-! ### Reading numbers -/

theorem scanLine_good {need : List Bool} {toks : List Tok} {vals acc : List Rat} (hl : need.length = vals.length)
    (h : List.zipWith Tok.value need toks = vals.map some) (hl' : toks.length = vals.length) :
    scanLine need acc toks = .done (acc ++ vals) := by
  induction need generalizing toks vals acc with
  | nil =>
    cases vals with
    | nil => cases toks <;> simp [scanLine]
    | cons => simp at hl
  | cons k need ih =>
    cases vals with
    | nil => simp at hl
    | cons v vals =>
      cases toks with
      | nil => simp at hl'
      | cons t toks =>
        simp at h hl hl'
        rw [scanLine, h.1]
        simp only
        rw [ih hl h.2 hl']
        simp

theorem zipWith_append' {α β γ} (f : α → β → γ) {a a' : List α} {b b' : List β} (h : a.length = b.length) :
    List.zipWith f (a ++ a') (b ++ b') = List.zipWith f a b ++ List.zipWith f a' b' := by
  rw [List.zipWith_append h]

theorem zipWith_replicate_left {α β γ} (f : α → β → γ) (a : α) (b : List β) :
    List.zipWith f (List.replicate b.length a) b = b.map (f a) := by
  induction b with
  | nil => rfl
  | cons x b ih => simp [List.replicate_succ, ih]

theorem flatten_length {rows : List (List Rat)} {w : Nat} (h : ∀ row ∈ rows, row.length = w) :
    rows.flatten.length = rows.length * w := by
  induction rows with
  | nil => simp
  | cons r rows ih =>
    rw [List.flatten_cons, List.length_append, ih fun r hr => h r (by simp [hr]), h r (by simp)]
    simp [Nat.add_mul, Nat.add_comm]

/-- The numbers of a record: time, then rows. -/
def Rec.nums (r : Rec) : List Rat := r.time.map (fun z : Int => (z : Rat)) ++ r.rows.flatten

theorem nums_length {c : Conf} {h : Header} {r : Rec} (hr : r.Ok c h) : r.nums.length = 6 + width c h := by
  unfold Rec.nums
  rw [List.length_append, List.length_map, hr.time, flatten_length hr.width, hr.rows]
  rfl

theorem readItems_rec {c : Conf} {h : Header} {r : Rec} {toks : List Tok} {rest : List (List Tok)} (hr : r.Ok c h)
    (hw : Written r toks) : readItems (kinds (width c h)) [] (toks :: rest) = .ok r.nums rest := by
  obtain ⟨nums, rfl, hn⟩ := hw
  have hl : nums.length = width c h := by
    have := congrArg List.length hn
    simp only [List.length_map] at this
    rw [this, flatten_length hr.width, hr.rows]; rfl
  rw [readItems, scanLine_good (vals := r.nums)]
  · rfl
  · rw [nums_length hr]; simp only [kinds, List.length_append, List.length_replicate]
  · unfold kinds Rec.nums
    rw [zipWith_append' _ (by simp [hr.time]), List.map_append]
    congr 1
    · have e : (6 : Nat) = (r.time.map Tok.int).length := by simp [hr.time]
      rw [e, zipWith_replicate_left]
      simp [Tok.value]
    · rw [← hl, zipWith_replicate_left, hn]
  · rw [nums_length hr]; simp [hr.time, hl]

theorem sameTime_rec {c : Conf} {h : Header} {r : Rec} (hr : r.Ok c h) (now : List Int) : sameTime now r.nums ↔ r.time = now := by
  unfold sameTime Rec.nums
  rw [List.take_left' (by simp [hr.time])]
  constructor
  · intro e
    have hinj : Function.Injective fun z : Int => (z : Rat) := fun a b h => Rat.intCast_inj.1 h
    exact List.map_injective_iff.2 hinj e
  · rintro rfl; rfl

/-! ### Rows -/

theorem rowOf_flatten {rows : List (List Rat)} {w : Nat} (h : ∀ row ∈ rows, row.length = w) (k : Nat) (row : List Rat)
    (hk : rows[k]? = some row) : rowOf w rows.flatten k = row := by
  unfold rowOf
  induction rows generalizing k with
  | nil => simp at hk
  | cons r rows ih =>
    have hr := h r (by simp)
    cases k with
    | zero =>
      simp at hk; subst hk
      simp [← hr]
    | succ k =>
      rw [List.flatten_cons, Nat.add_mul, Nat.one_mul, Nat.add_comm, ← List.drop_drop, List.drop_left' hr]
      exact ih (fun r hr => h r (by simp [hr])) k (by simpa using hk)

theorem isWater {c : Conf} {h : Header} {row : List Rat} (hw : row.length = h.cols.length + 2) :
    IsWater c h row ⟨row.getD 0 0, row.getD 1 0, concs c h row⟩ := by
  refine ⟨?_, ?_, by simp [concs], ?_, ?_⟩
  · simp only [List.getD_eq_getElem?_getD, List.getElem?_eq_getElem (show 0 < row.length by omega)]; rfl
  · simp only [List.getD_eq_getElem?_getD, List.getElem?_eq_getElem (show 1 < row.length by omega)]; rfl
  · intro j i col x h1 h2 h3
    simp [concs, h1, h2, List.getD_eq_getElem?_getD, h3]
  · intro j h1
    simp [concs, h1]

theorem nRows_full {c : Conf} (hf : c.Full) : nRows c = 1 + c.nExt + c.nObs ∧ nDep c = 1 + c.nExt := by
  unfold nRows nDep
  rcases hf with h | h
  · rw [if_pos h]; omega
  · rw [h]; split_ifs <;> omega

theorem assign_rec {c : Conf} {h : Header} {r : Rec} (hf : c.Full) (hr : r.Ok c h) :
    ∃ x, assign c h r.rows.flatten = some x ∧ r.Means c h x := by
  obtain ⟨hn, hd⟩ := nRows_full hf
  have hrow : ∀ k, k < nRows c → ∃ row, r.rows[k]? = some row ∧ rowOf (h.cols.length + 2) r.rows.flatten k = row ∧
      row.length = h.cols.length + 2 := by
    intro k hk
    rw [← hr.rows] at hk
    refine ⟨r.rows[k], by simp [hk], rowOf_flatten hr.width k _ (by simp [hk]), hr.width _ (List.getElem_mem hk)⟩
  unfold assign
  simp only
  rw [if_neg (by omega)]
  refine ⟨_, rfl, ?_, by simp, ?_, by simp, ?_⟩
  · obtain ⟨row, h1, h2, h3⟩ := hrow 0 (by omega)
    refine ⟨row, h1, ?_⟩
    simp only [h2]
    exact isWater h3
  · intro i w hw
    simp only [List.getElem?_map, Option.map_eq_some_iff] at hw
    obtain ⟨i', hi, rfl⟩ := hw
    rw [List.getElem?_eq_some_iff] at hi
    obtain ⟨hi1, hi2⟩ := hi
    simp at hi1 hi2
    subst hi2
    obtain ⟨row, h1, h2, h3⟩ := hrow (1 + i) (by omega)
    refine ⟨row, h1, ?_⟩
    have he : c.ext = 1 := by rcases hf with h | h; exact h; omega
    rw [Nat.add_comm 1 i] at h2
    simp only [h2, if_pos he]
    exact isWater h3
  · intro j w hw
    simp only [List.getElem?_map, Option.map_eq_some_iff] at hw
    obtain ⟨i', hi, rfl⟩ := hw
    rw [List.getElem?_eq_some_iff] at hi
    obtain ⟨hi1, hi2⟩ := hi
    simp at hi1 hi2
    subst hi2
    obtain ⟨row, h1, h2, h3⟩ := hrow (1 + c.nExt + j) (by omega)
    refine ⟨row, h1, ?_⟩
    rw [hd]
    simp only [h2]
    exact isWater h3

/-! ### Steps -/

theorem overlay_full {vals old : List Rat} (h : old.length ≤ vals.length) : overlay vals old = vals := by
  rw [overlay, List.drop_of_length_le h, List.append_nil]

theorem nums_drop {c : Conf} {h : Header} {r : Rec} (hr : r.Ok c h) : r.nums.drop 6 = r.rows.flatten := by
  unfold Rec.nums
  rw [List.drop_left' (by simp [hr.time])]

theorem flat_length {c : Conf} {h : Header} {r : Rec} (hr : r.Ok c h) : r.rows.flatten.length = width c h := by
  rw [flatten_length hr.width, hr.rows]; rfl

theorem assign_isSome {c : Conf} (h : Header) (dat : List Rat) (hf : c.Full) : ∃ x, assign c h dat = some x := by
  obtain ⟨hn, hd⟩ := nRows_full hf
  unfold assign
  simp only
  rw [if_neg (by omega)]
  exact ⟨_, rfl⟩

/-- A later step with a record. -/
theorem step_later {c : Conf} {h : Header} {r : Rec} {toks : List Tok} {rest : List (List Tok)} {dat : List Rat} (g : List Rat)
    (now : List Int) (hf : c.Full) (hr : r.Ok c h) (hw : Written r toks) (hd : dat.length ≤ width c h) :
    (r.time = now → ∃ x, step c h ⟨toks :: rest, dat, false⟩ g now = .ok (x, ⟨rest, r.rows.flatten, false⟩) ∧ r.Means c h x) ∧
    (r.time ≠ now → step c h ⟨toks :: rest, dat, false⟩ g now = .stop) := by
  have ho : overlay r.nums (g.take 6 ++ dat) = r.nums := overlay_full (by
    rw [nums_length hr, List.length_append, List.length_take]; omega)
  obtain ⟨x, hx, hm⟩ := assign_rec hf hr
  constructor
  · intro ht
    refine ⟨x, ?_, hm⟩
    unfold step readInto finish
    simp only [readItems_rec hr hw, ho, Bool.false_eq_true, if_false]
    rw [if_neg (by simpa [sameTime_rec hr] using ht), nums_drop hr, hx]
    simp
  · intro ht
    unfold step readInto finish
    simp only [readItems_rec hr hw, ho, Bool.false_eq_true, if_false]
    rw [if_pos (by simpa [sameTime_rec hr] using ht)]

theorem seek_hit {c : Conf} {h : Header} {r : Rec} {rest : List (List Tok)} {now : List Int} (hr : r.Ok c h)
    (ht : r.time = now) : seek (width c h) now r.nums rest = some (r.nums, rest) := by
  rw [seek, if_pos ((sameTime_rec hr now).2 ht)]

theorem seek_next {c : Conf} {h : Header} {r r' : Rec} {toks : List Tok} {rest : List (List Tok)} {now : List Int} (hr : r.Ok c h)
    (ht : r.time ≠ now) (hr' : r'.Ok c h) (hw : Written r' toks) :
    seek (width c h) now r.nums (toks :: rest) = seek (width c h) now r'.nums rest := by
  rw [seek, if_neg (by rw [sameTime_rec hr]; exact ht)]
  split
  · rename_i v rest' e
    rw [readItems_rec hr' hw] at e
    cases e; rfl
  · rename_i hx
    exact absurd (readItems_rec hr' hw) (hx _ _)

theorem seek_end {c : Conf} {h : Header} {r : Rec} {now : List Int} (hr : r.Ok c h) (ht : r.time ≠ now) :
    seek (width c h) now r.nums [] = none := by
  rw [seek, if_neg (by rw [sameTime_rec hr]; exact ht)]
  simp [readItems]

/-- The first step continues as a later step from the record found. -/
theorem seek_found {c : Conf} {h : Header} {now : List Int} {recs : List Rec} {lines : List (List Tok)}
    (hw : List.Forall₂ Written recs lines) (hr : ∀ r ∈ recs, r.Ok c h) (r0 : Rec) (hr0 : r0.Ok c h) :
    (∃ pre r post rest, r0 :: recs = pre ++ r :: post ∧ (∀ x ∈ pre, x.time ≠ now) ∧ r.time = now ∧
      List.Forall₂ Written post rest ∧ seek (width c h) now r0.nums lines = some (r.nums, rest)) ∨
    ((∀ x ∈ r0 :: recs, x.time ≠ now) ∧ seek (width c h) now r0.nums lines = none) := by
  induction hw generalizing r0 with
  | nil =>
    by_cases ht : r0.time = now
    · exact Or.inl ⟨[], r0, [], [], rfl, by simp, ht, .nil, seek_hit hr0 ht⟩
    · exact Or.inr ⟨by simpa using ht, seek_end hr0 ht⟩
  | @cons r1 toks recs lines hw1 hw ih =>
    by_cases ht : r0.time = now
    · exact Or.inl ⟨[], r0, _, _, rfl, by simp, ht, .cons hw1 hw, seek_hit hr0 ht⟩
    · rw [seek_next hr0 ht (hr r1 (by simp)) hw1]
      rcases ih (fun r h => hr r (by simp [h])) r1 (hr r1 (by simp)) with ⟨pre, r, post, rest, h1, h2, h3, h4, h5⟩ | ⟨h1, h2⟩
      · exact Or.inl ⟨r0 :: pre, r, post, rest, by rw [h1]; rfl, by
          intro x hx
          rcases List.mem_cons.1 hx with rfl | hx
          exacts [ht, h2 x hx], h3, h4, h5⟩
      · refine Or.inr ⟨?_, h2⟩
        intro x hx
        rcases List.mem_cons.1 hx with rfl | hx
        exacts [ht, h1 x hx]

/-- The steps after the first. -/
theorem later_steps {c : Conf} {h : Header} (hf : c.Full) (steps : List (List Rat × List Int)) (recs : List Rec)
    (lines : List (List Tok)) (dat : List Rat) (hd : dat.length ≤ width c h) (hw : List.Forall₂ Written recs lines)
    (hr : ∀ r ∈ recs, r.Ok c h) :
    (∀ l, runSteps c h ⟨lines, dat, false⟩ steps = .ok l → ∃ seg post, recs = seg ++ post ∧ seg.map (·.time) = steps.map (·.2) ∧
      List.Forall₂ (Rec.Means c h) seg l) ∧
    (∀ seg post, recs = seg ++ post → seg.map (·.time) = steps.map (·.2) →
      ∃ l, runSteps c h ⟨lines, dat, false⟩ steps = .ok l ∧ List.Forall₂ (Rec.Means c h) seg l) := by
  induction steps generalizing recs lines dat with
  | nil =>
    constructor
    · intro l hl
      simp [runSteps] at hl
      subst hl
      exact ⟨[], recs, rfl, rfl, .nil⟩
    · intro seg post _ hs
      have : seg = [] := by simpa using hs
      subst this
      exact ⟨[], rfl, .nil⟩
  | cons s steps ih =>
    obtain ⟨g, now⟩ := s
    cases hw with
    | nil =>
      constructor
      · intro l hl
        exfalso
        obtain ⟨x, hx⟩ := assign_isSome h ((g.take 6 ++ dat).drop 6) hf
        rw [runSteps] at hl
        have : ∀ y, step c h ⟨[], dat, false⟩ g now ≠ .ok y := by
          intro y
          unfold step readInto finish
          simp only [readItems, overlay, List.nil_append, List.length_nil, List.drop_zero, Bool.false_eq_true, if_false, hx]
          split_ifs <;> simp_all
        cases hst : step c h ⟨[], dat, false⟩ g now with
        | ok y => exact this y hst
        | stop => simp [hst] at hl
        | abort => simp [hst] at hl
        | ub => simp [hst] at hl
      · intro seg post hseg hs
        have : seg = [] := (List.append_eq_nil_iff.1 hseg.symm).1
        subst this
        simp at hs
    | @cons r toks recs lines hw1 hw =>
      have hr1 := hr r (by simp)
      obtain ⟨s1, s2⟩ := step_later (rest := lines) g now hf hr1 hw1 hd
      by_cases ht : r.time = now
      · obtain ⟨x, hx, hm⟩ := s1 ht
        obtain ⟨i1, i2⟩ := ih recs lines r.rows.flatten (by rw [flat_length hr1]) hw fun r h => hr r (by simp [h])
        rw [runSteps]
        simp only [hx]
        constructor
        · intro l hl
          cases e : runSteps c h ⟨lines, r.rows.flatten, false⟩ steps with
          | ok l' =>
            simp only [e, Res.ok.injEq] at hl
            subst hl
            obtain ⟨seg, post, h1, h2, h3⟩ := i1 l' e
            exact ⟨r :: seg, post, by rw [h1]; rfl, by simp [ht, h2], .cons hm h3⟩
          | stop => simp [e] at hl
          | abort => simp [e] at hl
          | ub => simp [e] at hl
        · intro seg post hseg hs
          cases seg with
          | nil => simp at hs
          | cons a seg =>
            simp only [List.cons_append, List.cons.injEq] at hseg
            obtain ⟨rfl, hseg⟩ := hseg
            simp only [List.map_cons, List.cons.injEq] at hs
            obtain ⟨l, hl, hf'⟩ := i2 seg post hseg hs.2
            exact ⟨x :: l, by simp [hl], .cons hm hf'⟩
      · rw [runSteps]
        simp only [s2 ht]
        constructor
        · intro l hl; cases hl
        · intro seg post hseg hs
          cases seg with
          | nil => simp at hs
          | cons a seg =>
            simp only [List.cons_append, List.cons.injEq] at hseg
            obtain ⟨rfl, hseg⟩ := hseg
            simp only [List.map_cons, List.cons.injEq] at hs
            exact absurd hs.1 ht

/-- The first step reads like a later one from the line found. -/
theorem step_first {c : Conf} {h : Header} {r r0 : Rec} {toks0 : List Tok} {lines0 rest : List (List Tok)}
    {dat : List Rat} (g : List Rat) (now : List Int) (hf : c.Full) (hr : r.Ok c h) (hr0 : r0.Ok c h) (hw0 : Written r0 toks0)
    (hd : dat.length ≤ width c h) (ht : r.time = now)
    (hs : seek (width c h) now r0.nums lines0 = some (r.nums, rest)) :
    ∃ x, step c h ⟨toks0 :: lines0, dat, true⟩ g now = .ok (x, ⟨rest, r.rows.flatten, false⟩) ∧ r.Means c h x := by
  have ho : overlay r0.nums (g.take 6 ++ dat) = r0.nums := overlay_full (by
    rw [nums_length hr0, List.length_append, List.length_take]; omega)
  obtain ⟨x, hx, hm⟩ := assign_rec hf hr
  refine ⟨x, ?_, hm⟩
  unfold step readInto finish
  simp only [readItems_rec hr0 hw0, ho, if_true, hs]
  rw [if_neg (by simpa [sameTime_rec hr] using ht), nums_drop hr, hx]
  simp

end Verif.ObsChem
