import Verif.Lemmas.ObsChem
import Mathlib.Tactic.FieldSimp
import Mathlib.Tactic.Positivity
import Mathlib.Tactic.Linarith
/-
C97: the header of the chemistry file.  C98: unusual headers.  C99: concentrations.  C100: chemistry and
weather stay together.  C101: incomplete and wrong lines.  C102: use of the rows.
Specification: `Verif/Spec/ObsChem.lean`.
-/
namespace Verif.ObsChem

/-- Two species. -/
def demoTable : List Species := [⟨"Ca".toList, 40080, 2000, false⟩, ⟨"Cl".toList, 35453, 1000, false⟩, ⟨"Si".toList, 60000, 0, false⟩]

/-- Precipitation and one sample. -/
def demoConf : Conf := ⟨1, 0, 0, 1, fun _ => 1, demoTable, ["Cl".toList, "Ca".toList]⟩

/-! ### C97 -/

/-- C97: whatever the order of the columns, if all species and units are known the header is understood:
each solute of the model gets the column with its name, with its unit, and the data after it are kept. -/
theorem C97_header (c : Conf) (g : Text) (lines data : List Text) (pairs : List (Text × Text))
    (hp : c.ppt = 1) (he : c.ext = 0 ∨ c.ext = 1) (ht : (c.table.map (·.name)).Nodup)
    (hn : ∀ n ∈ c.names, ∃ t ∈ c.table, t.name = n)
    (hf : Layout lines (headerLine pairs) data) (hl : (headerLine pairs).length ≤ 1000)
    (hw : ∀ p ∈ pairs, IsWord p.1 ∧ IsWord p.2) (hc : pairs.length ≤ 100) (ha : ∀ p ∈ pairs, Accept c.table p) :
    ∃ h, init c g (some lines) = .ok (some (h, data)) ∧ Reads c.table c.names pairs h := by
  obtain ⟨sols, hs⟩ : ∃ sols, c.names.mapM (speciesId c.table) = some sols := by
    apply Option.ne_none_iff_exists'.1
    rw [Ne, mapM_option_none]
    rintro ⟨n, h1, h2⟩
    obtain ⟨t, h3, h4⟩ := hn n h1
    exact speciesId_none.1 h2 t h3 h4
  obtain ⟨cols, hcols⟩ : ∃ cols, pairs.mapM (checkColumn c.table) = some cols := by
    apply Option.ne_none_iff_exists'.1
    rw [Ne, mapM_option_none]
    rintro ⟨p, h1, h2⟩
    obtain ⟨x, hx⟩ := (checkColumn_some ht p).2 (ha p h1)
    rw [h2] at hx; cases hx
  have hws : ∀ w ∈ "tempc".toList :: "pH".toList :: flat pairs, IsWord w := by
    intro w h
    rcases List.mem_cons.1 h with rfl | h
    · exact tempc_word
    rcases List.mem_cons.1 h with rfl | h
    · exact ph_word
    simp only [flat, List.mem_flatMap] at h
    obtain ⟨p, h1, h2⟩ := h
    have := hw p h1
    simp at h2
    rcases h2 with rfl | rfl
    exacts [this.1, this.2]
  refine ⟨⟨cols, sols.map (columnOf cols)⟩, ?_, reads_ok hs hcols⟩
  rw [init_layout hp he hs hf]
  unfold headerLine at hl ⊢
  rw [readHeader_words _ _ _ _ _ _ hws hl, pairUp_flat, if_neg (by omega), if_neg (by simp)]
  simp only [hcols]

example : init demoConf [] (some ["note".toList, "** Species and Units **".toList, "tempc pH Ca mg/L Cl meq/L".toList,
    [], [], [], "2000 1 1 0 0 0".toList]) =
      .ok (some (⟨[⟨0, 0⟩, ⟨1, 1⟩], [some 1, some 0]⟩, ["2000 1 1 0 0 0".toList])) := by decide +kernel

example : headerLine [("Ca".toList, "mg/L".toList), ("Cl".toList, "meq/L".toList)] = "tempc pH Ca mg/L Cl meq/L".toList ∧
    Accept demoTable ("Ca".toList, "mg/L".toList) :=
  ⟨by decide, _, List.mem_cons_self, rfl, by decide, by simp⟩

/-- C97: the run is refused exactly if a species or unit is not known or equivalents are asked for a
species without charge. -/
theorem C97_refused (c : Conf) (g : Text) (lines data : List Text) (pairs : List (Text × Text))
    (hp : c.ppt = 1) (he : c.ext = 0 ∨ c.ext = 1) (ht : (c.table.map (·.name)).Nodup)
    (hn : ∀ n ∈ c.names, ∃ t ∈ c.table, t.name = n)
    (hf : Layout lines (headerLine pairs) data) (hl : (headerLine pairs).length ≤ 1000)
    (hw : ∀ p ∈ pairs, IsWord p.1 ∧ IsWord p.2) (hc : pairs.length ≤ 100) :
    init c g (some lines) = .stop ↔ ∃ p ∈ pairs, ¬ Accept c.table p := by
  constructor
  · intro h
    by_contra hno
    push Not at hno
    obtain ⟨h', h1, -⟩ := C97_header c g lines data pairs hp he ht hn hf hl hw hc hno
    rw [h] at h1; cases h1
  · rintro ⟨p, hp1, hp2⟩
    obtain ⟨sols, hs⟩ : ∃ sols, c.names.mapM (speciesId c.table) = some sols := by
      apply Option.ne_none_iff_exists'.1
      rw [Ne, mapM_option_none]
      rintro ⟨n, h1, h2⟩
      obtain ⟨t, h3, h4⟩ := hn n h1
      exact speciesId_none.1 h2 t h3 h4
    have hws : ∀ w ∈ "tempc".toList :: "pH".toList :: flat pairs, IsWord w := by
      intro w h
      rcases List.mem_cons.1 h with rfl | h
      · exact tempc_word
      rcases List.mem_cons.1 h with rfl | h
      · exact ph_word
      simp only [flat, List.mem_flatMap] at h
      obtain ⟨p, h1, h2⟩ := h
      have := hw p h1
      simp at h2
      rcases h2 with rfl | rfl
      exacts [this.1, this.2]
    have hnone : pairs.mapM (checkColumn c.table) = none := by
      rw [mapM_option_none]
      refine ⟨p, hp1, ?_⟩
      by_contra hc
      exact hp2 ((checkColumn_some ht p).1 (Option.ne_none_iff_exists'.1 hc))
    rw [init_layout hp he hs hf]
    unfold headerLine at hl ⊢
    rw [readHeader_words _ _ _ _ _ _ hws hl, pairUp_flat, if_neg (by omega), if_neg (by simp)]
    simp only [hnone]

example : init demoConf [] (some ["** Species and Units **".toList, "tempc pH Si meq/L".toList, [], [], []]) = .stop ∧
    init demoConf [] (some ["** Species and Units **".toList, "tempc pH Ca g/L".toList, [], [], []]) = .stop ∧
    init demoConf [] (some ["** Species and Units **".toList, "tempc pH Xy mg/L".toList, [], [], []]) = .stop := by
  decide +kernel

/-- C97: temperature and pH must come first. -/
theorem C97_first (c : Conf) (g : Text) (lines data : List Text) (a b : Text) (ws : List Text)
    (hp : c.ppt = 1) (he : c.ext = 0 ∨ c.ext = 1) (hn : ∀ n ∈ c.names, ∃ t ∈ c.table, t.name = n)
    (hf : Layout lines (line (a :: b :: ws)) data) (hl : (line (a :: b :: ws)).length ≤ 1000)
    (hw : ∀ w ∈ a :: b :: ws, IsWord w) (hc : ws.length ≤ 199) (hab : a ≠ "tempc".toList ∨ b ≠ "pH".toList) :
    init c g (some lines) = .stop := by
  obtain ⟨sols, hs⟩ : ∃ sols, c.names.mapM (speciesId c.table) = some sols := by
    apply Option.ne_none_iff_exists'.1
    rw [Ne, mapM_option_none]
    rintro ⟨n, h1, h2⟩
    obtain ⟨t, h3, h4⟩ := hn n h1
    exact speciesId_none.1 h2 t h3 h4
  have hlen : ∀ (k : Nat) (ws : List Text), ws.length ≤ k → 2 * (pairUp g ws).length ≤ ws.length + 1 := by
    intro k
    induction k with
    | zero => intro ws h; have : ws = [] := List.length_eq_zero_iff.1 (by omega); subst this; simp [pairUp]
    | succ k ih =>
      intro ws h
      match ws with
      | [] => simp [pairUp]
      | [s] => simp [pairUp]
      | s :: u :: r =>
        have := ih r (by simp at h; omega)
        simp only [pairUp, List.length_cons]; omega
  have := hlen _ ws (Nat.le_refl _)
  rw [init_layout hp he hs hf, readHeader_words _ _ _ _ _ _ hw hl, if_neg (by omega), if_pos hab]

example : init demoConf [] (some ["** Species and Units **".toList, "pH tempc Ca mg/L".toList, [], [], []]) = .stop := by
  decide +kernel

/-! ### C98 -/

/-- C98: a last species without unit is not refused: the unit is what the variable happens to hold. -/
theorem C98_unit_missing_violated (c : Conf) (u : Text) (pairs : List (Text × Text)) (s : Text) (before after : List Text)
    (sols : List Nat) (hp : c.ppt = 1) (he : c.ext = 0 ∨ c.ext = 1) (hs : c.names.mapM (speciesId c.table) = some sols)
    (hb : ∀ l ∈ before, ¬ "** Species and Units **".toList <+: l) (ha : 3 ≤ after.length)
    (hw : ∀ p ∈ pairs, IsWord p.1 ∧ IsWord p.2) (hsw : IsWord s) (hu : IsWord u)
    (hl : (headerLine (pairs ++ [(s, u)])).length ≤ 1000) :
    init c u (some (before ++ "** Species and Units **".toList :: line ("tempc".toList :: "pH".toList :: (flat pairs ++ [s])) :: after)) =
      init c u (some (before ++ "** Species and Units **".toList :: headerLine (pairs ++ [(s, u)]) :: after)) := by
  have hws : ∀ w ∈ "tempc".toList :: "pH".toList :: (flat pairs ++ [s, u]), IsWord w := by
    intro w h
    rcases List.mem_cons.1 h with rfl | h
    · exact tempc_word
    rcases List.mem_cons.1 h with rfl | h
    · exact ph_word
    rcases List.mem_append.1 h with h | h
    · simp only [flat, List.mem_flatMap] at h
      obtain ⟨p, h1, h2⟩ := h
      have := hw p h1
      simp at h2
      rcases h2 with rfl | rfl
      exacts [this.1, this.2]
    · simp at h; rcases h with rfl | rfl <;> assumption
  have e1 : headerLine (pairs ++ [(s, u)]) = line ("tempc".toList :: "pH".toList :: (flat pairs ++ [s, u])) := by
    simp [headerLine, flat]
  have lay : ∀ hd, Layout (before ++ "** Species and Units **".toList :: hd :: after) hd (after.drop 3) := by
    intro hd
    refine ⟨before, [], after.take 3, ?_, by simp; omega, hb⟩
    rw [List.append_nil, List.take_append_drop]
  have hshort : (line ("tempc".toList :: "pH".toList :: (flat pairs ++ [s]))).length ≤ 1000 := by
    have key : ∀ ws : List Text, (line (ws ++ [s])).length ≤ (line (ws ++ [s, u])).length := by
      intro ws
      induction ws with
      | nil => simp [line]
      | cons w ws ih =>
        rw [List.cons_append, List.cons_append, line_cons (by simp), line_cons (by simp)]
        simp only [List.length_append, List.length_cons]; omega
    have := key ("tempc".toList :: "pH".toList :: flat pairs)
    rw [e1] at hl
    exact Nat.le_trans this hl
  rw [init_layout hp he hs (lay _), init_layout hp he hs (lay _), e1, readHeader_words _ _ _ _ _ _ hws (e1 ▸ hl),
    readHeader_words _ _ _ _ _ _ (fun w h => hws w (by simp at h ⊢; tauto)) hshort, pairUp_flat_append, pairUp_flat_append]
  rfl

example : init demoConf "mmol/L".toList (some ["** Species and Units **".toList, "tempc pH Ca".toList, [], [], []]) =
    .ok (some (⟨[⟨0, 5⟩], [none, some 0]⟩, [])) := by decide +kernel

/-- C98: a second blank before a species is refused, though words and order are right. -/
theorem C98_blanks_violated (c : Conf) (g : Text) (lines data : List Text) (pairs : List (Text × Text)) (rest : List Text)
    (hp : c.ppt = 1) (he : c.ext = 0 ∨ c.ext = 1) (ht : ∀ t ∈ c.table, IsWord t.name) (hn : ∀ n ∈ c.names, ∃ t ∈ c.table, t.name = n)
    (hr : rest ≠ []) (hw : ∀ p ∈ pairs, IsWord p.1 ∧ IsWord p.2) (hws : ∀ w ∈ rest, IsWord w)
    (hf : Layout lines (line ("tempc".toList :: "pH".toList :: (flat pairs ++ [] :: rest))) data)
    (hl : (line ("tempc".toList :: "pH".toList :: (flat pairs ++ [] :: rest))).length ≤ 1000) :
    ∀ x, init c g (some lines) ≠ .ok x := by
  obtain ⟨sols, hs⟩ : ∃ sols, c.names.mapM (speciesId c.table) = some sols := by
    apply Option.ne_none_iff_exists'.1
    rw [Ne, mapM_option_none]
    rintro ⟨n, h1, h2⟩
    obtain ⟨t, h3, h4⟩ := hn n h1
    exact speciesId_none.1 h2 t h3 h4
  have hflat : ∀ w ∈ flat pairs, IsWord w := by
    intro w h
    simp only [flat, List.mem_flatMap] at h
    obtain ⟨p, h1, h2⟩ := h
    have := hw p h1
    simp at h2
    rcases h2 with rfl | rfl
    exacts [this.1, this.2]
  -- the words read
  have hwords : ∀ ws : List Text, (∀ w ∈ ws, IsWord w) → ∃ w' r', wordsOf (line (ws ++ [] :: rest)) = ws ++ (' ' :: w') :: r' := by
    intro ws
    induction ws with
    | nil =>
      intro _
      rw [List.nil_append, line_cons hr, List.nil_append, wordsOf, if_neg (by simp)]
      have hword : ∃ w', word (' ' :: line rest) = ' ' :: w' := by
        obtain ⟨a, r, rfl⟩ := List.exists_cons_of_ne_nil hr
        obtain ⟨x, a', rfl⟩ := List.exists_cons_of_ne_nil (hws _ List.mem_cons_self).1
        have hx : x ≠ ' ' := by rintro rfl; exact (hws _ List.mem_cons_self).2.1 (by simp)
        have hl : ∃ t, line ((x :: a') :: r) = x :: t := by
          by_cases h : r = []
          · subst h; exact ⟨_, rfl⟩
          · rw [line_cons h]; exact ⟨_, rfl⟩
        obtain ⟨t, ht'⟩ := hl
        rw [ht']
        unfold word
        rw [List.headD_cons, List.tail_cons, List.takeWhile_cons_of_pos (by simpa using hx)]
        have : trim ((' ' :: x :: t.takeWhile (· ≠ ' ')).take 12) = (' ' :: x :: t.takeWhile (· ≠ ' ')).take 12 := by
          apply trim_noblank
          rw [List.take_succ_cons, List.take_succ_cons]
          rintro c hc rfl
          rw [List.getLast?_cons_cons] at hc
          have hm := List.mem_of_getLast? hc
          rcases List.mem_cons.1 hm with h | h
          · exact hx h.symm
          · have := List.mem_of_mem_take h
            have hall := List.all_takeWhile (l := t) (p := fun c => decide (c ≠ ' '))
            rw [List.all_eq_true] at hall
            simpa using hall _ this
        rw [this]
        exact ⟨_, rfl⟩
      obtain ⟨w', hw'⟩ := hword
      rw [hw']
      exact ⟨_, _, rfl⟩
    | cons w ws ih =>
      intro hws'
      have hw1 := hws' w (by simp)
      obtain ⟨w', r', e⟩ := ih fun w hw => hws' w (by simp [hw])
      refine ⟨w', r', ?_⟩
      rw [List.cons_append, wordsOf, if_neg (line_ne hw1), word_line hw1, drop_line, e]
      rfl
  -- trimming changes nothing
  have hlast : ∀ ws : List Text, (∀ w ∈ ws, IsWord w) → ∀ ch, (line (ws ++ [] :: rest)).getLast? = some ch → ch ≠ ' ' := by
    have hne : line rest ≠ [] := by
      obtain ⟨a, r, rfl⟩ := List.exists_cons_of_ne_nil hr
      exact line_ne (hws _ List.mem_cons_self)
    obtain ⟨y, hy⟩ := Option.ne_none_iff_exists'.1 (mt List.getLast?_eq_none_iff.1 hne)
    have hy' := line_last hws y hy
    have : ∀ ws : List Text, (line (ws ++ [] :: rest)).getLast? = some y := by
      intro ws
      induction ws with
      | nil => rw [List.nil_append, line_cons hr, List.nil_append, List.getLast?_cons, hy]; rfl
      | cons w ws ih =>
        rw [List.cons_append, line_cons (by simp), List.getLast?_append_of_ne_nil _ (by simp), List.getLast?_cons, ih]; rfl
    intro ws _ ch hch
    rw [this ws] at hch
    cases hch; exact hy'
  obtain ⟨w', r', e⟩ := hwords (flat pairs) hflat
  have hrd : ∀ h, readHeader c.table sols g (line ("tempc".toList :: "pH".toList :: (flat pairs ++ [] :: rest))) ≠ .ok h := by
    intro h
    unfold readHeader
    have htr := trim_noblank (hlast ("tempc".toList :: "pH".toList :: flat pairs) (by
      intro w h
      rcases List.mem_cons.1 h with rfl | h
      · exact tempc_word
      rcases List.mem_cons.1 h with rfl | h
      · exact ph_word
      exact hflat w h))
    rw [List.cons_append, List.cons_append] at htr
    rw [List.take_of_length_le hl, htr]
    simp only [word_line tempc_word, drop_line, word_line ph_word, e, pairUp_flat_append]
    have hnone : (pairs ++ pairUp g ((' ' :: w') :: r')).mapM (checkColumn c.table) = none := by
      rw [mapM_option_none]
      obtain ⟨u, r'', he⟩ : ∃ u r'', pairUp g ((' ' :: w') :: r') = (' ' :: w', u) :: r'' := by
        cases r' with
        | nil => exact ⟨_, _, rfl⟩
        | cons u r'' => exact ⟨_, _, rfl⟩
      refine ⟨(' ' :: w', u), by rw [he]; simp, ?_⟩
      unfold checkColumn
      have : speciesId c.table (' ' :: w') = none := by
        rw [speciesId_none]
        intro t htm hname
        exact (ht t htm).2.1 (by rw [hname]; simp)
      simp only [this]
    simp only [hnone]
    split_ifs <;> simp
  rw [init_layout hp he hs hf]
  intro x
  cases hx : readHeader c.table sols g (line ("tempc".toList :: "pH".toList :: (flat pairs ++ [] :: rest))) with
  | ok h => exact absurd hx (hrd h)
  | stop => simp
  | abort => simp
  | ub => simp

example : line ["tempc".toList, "pH".toList, [], "Ca".toList, "mg/L".toList] = "tempc pH  Ca mg/L".toList ∧
    init demoConf [] (some ["** Species and Units **".toList, "tempc pH  Ca mg/L".toList, [], [], []]) = .stop := by
  decide +kernel

/-- C98: a species of the table with a name of more than 12 characters cannot be named. -/
theorem C98_long_violated : ∃ (c : Conf) (t : Species), t ∈ c.table ∧ t.name = "Alkalinity(HCO3)".toList ∧
    init c [] (some ["** Species and Units **".toList, "tempc pH Alkalinity(HCO3) mg/L".toList, [], [], []]) = .stop := by
  refine ⟨⟨1, 0, 0, 1, fun _ => 1, [⟨"Alkalinity(HCO3)".toList, 60000, 1000, false⟩], []⟩, _, List.mem_cons_self, rfl, ?_⟩
  decide +kernel

/-- C98: a solute of the model that is not in the table is not refused: the table is read outside its bounds. -/
theorem C98_solute_violated (c : Conf) (g : Text) (file : Option (List Text)) (hp : c.ppt = 0 ∨ c.ppt = 1) (he : c.ext = 0 ∨ c.ext = 1)
    (n : Text) (hn : n ∈ c.names) (ht : ∀ t ∈ c.table, t.name ≠ n) : init c g file = .ub := by
  unfold init
  rw [if_neg (by rcases hp with h | h <;> rw [h] <;> decide), if_neg (by rcases he with h | h <;> rw [h] <;> decide),
    mapM_option_none.2 ⟨n, hn, speciesId_none.2 ht⟩]

example : init ⟨1, 0, 0, 0, fun _ => 1, demoTable, ["Xy".toList]⟩ [] none = .ub := by decide +kernel

/-- C98: if precipitation is constant the file is not read, also if external sources should be read from it. -/
theorem C98_constant_violated (c : Conf) (g : Text) (file : List Text) (hp : c.ppt = 0) :
    init c g (some file) = init c g none := by
  unfold init
  simp only [hp, if_true]

example : init ⟨0, 1, 1, 0, fun _ => 1, demoTable, ["Ca".toList]⟩ []
    (some ["** Species and Units **".toList, "tempc pH Ca mg/L".toList, [], [], []]) = .ok none := by decide +kernel

/-! ### C99 -/

/-- C99: the same concentration written in any unit becomes the same number of moles per litre. -/
theorem C99_units (c : Conf) (col : Column) (t : Species) (u : Text) (f x : Rat) (ht : c.table[col.species]? = some t)
    (hu : unitNames[col.unit]? = some u) (hf : perMole c t u = some f) (h0 : 0 < f) (hx : 0 ≤ x) :
    convert c col (x * f) = x := by
  have hxf : 0 ≤ x * f := by positivity
  have hlt : col.unit < 8 := by
    by_contra hc
    rw [List.getElem?_eq_none (by simp [unitNames]; omega)] at hu; cases hu
  have hne : f ≠ 0 := ne_of_gt h0
  unfold convert
  rw [if_pos hxf, ht]
  obtain ⟨s, k⟩ := col
  simp only at hu hlt ⊢
  have hk : k = 0 ∨ k = 1 ∨ k = 2 ∨ k = 3 ∨ k = 4 ∨ k = 5 ∨ k = 6 ∨ k = 7 := by omega
  rcases hk with rfl | rfl | rfl | rfl | rfl | rfl | rfl | rfl <;> simp [unitNames] at hu <;> subst hu <;>
    simp [perMole] at hf <;> subst hf <;> simp <;> field_simp

example : convert demoConf ⟨0, 0⟩ (3 / 1000 * 40080) = 3 / 1000 ∧ convert demoConf ⟨0, 1⟩ (3 / 1000 * 2000) = 3 / 1000 := by
  decide +kernel

/-- C99: isotope ratios and negative values are passed on unchanged. -/
theorem C99_unchanged (c : Conf) (col : Column) (x : Rat) (h : unitNames[col.unit]? = some "permil".toList ∨ x < 0) :
    convert c col x = x := by
  unfold convert
  rcases h with h | h
  · have hk : col.unit = 7 := by
      have hlt : col.unit < 8 := by
        by_contra hc
        rw [List.getElem?_eq_none (by simp [unitNames]; omega)] at h; cases h
      obtain ⟨s, k⟩ := col
      simp only at h hlt ⊢
      have hk : k = 0 ∨ k = 1 ∨ k = 2 ∨ k = 3 ∨ k = 4 ∨ k = 5 ∨ k = 6 ∨ k = 7 := by omega
      rcases hk with rfl | rfl | rfl | rfl | rfl | rfl | rfl | rfl <;> simp [unitNames] at h ⊢
    simp [hk]
  · rw [if_neg (by linarith)]

example : convert demoConf ⟨0, 7⟩ 12 = 12 ∧ convert demoConf ⟨0, 0⟩ (-1) = -1 := by decide +kernel

/-- C99: a later step whose record has the time of the step passes on the waters of the record, whatever was
read before. -/
theorem C99_step (c : Conf) (h : Header) (r : Rec) (toks : List Tok) (rest : List (List Tok)) (dat g : List Rat) (now : List Int)
    (hf : c.Full) (hr : r.Ok c h) (hw : Written r toks) (hd : dat.length = width c h) (ht : r.time = now) :
    ∃ x s, step c h ⟨toks :: rest, dat, false⟩ g now = .ok (x, s) ∧ r.Means c h x := by
  obtain ⟨x, h1, h2⟩ := (step_later (rest := rest) g now hf hr hw (Nat.le_of_eq hd)).1 ht
  exact ⟨x, _, h1, h2⟩

/-- Two columns: calcium in mg/L, chloride in mmol/L. -/
def demoHeader : Header := ⟨[⟨0, 0⟩, ⟨1, 5⟩], [some 1, some 0]⟩

/-- One day: precipitation and a sample. -/
def demoRec : Rec := ⟨[2000, 1, 1, 0, 0, 0], [[10, 5, 40080, 1000], [12, 7, 20040, 500]]⟩

example : demoConf.Full ∧ demoRec.Ok demoConf demoHeader := ⟨Or.inr rfl, ⟨rfl, rfl, by decide⟩⟩

example : step demoConf demoHeader ⟨[[.int 2000, .int 1, .int 1, .int 0, .int 0, .int 0, .int 10, .int 5, .int 40080, .real 1000,
    .int 12, .int 7, .int 20040, .int 500]], List.replicate 8 0, false⟩ [] [2000, 1, 1, 0, 0, 0] =
      .ok (⟨⟨10, 5, [1, 1]⟩, [], [⟨12, 7, [1 / 2, 1 / 2]⟩]⟩, ⟨[], [10, 5, 40080, 1000, 12, 7, 20040, 500], false⟩) := by decide +kernel

/-! ### C100 -/

/-- C100: with a file of complete records a run succeeds exactly if, after some records of other times, there are
records with the times of its steps one after the other; then each step uses the record of its time. -/
theorem C100_run (c : Conf) (h : Header) (hf : c.Full) (recs : List Rec) (lines : List (List Tok)) (hr : ∀ r ∈ recs, r.Ok c h)
    (hw : List.Forall₂ Written recs lines) (dat : List Rat) (hd : dat.length = width c h) (g0 : List Rat) (now0 : List Int)
    (steps : List (List Rat × List Int)) :
    (∀ l, runSteps c h ⟨lines, dat, true⟩ ((g0, now0) :: steps) = .ok l →
      ∃ pre seg post, recs = pre ++ seg ++ post ∧ (∀ r ∈ pre, r.time ≠ now0) ∧
        seg.map (·.time) = now0 :: steps.map (·.2) ∧ List.Forall₂ (Rec.Means c h) seg l) ∧
    (∀ pre seg post, recs = pre ++ seg ++ post → (∀ r ∈ pre, r.time ≠ now0) → seg.map (·.time) = now0 :: steps.map (·.2) →
      ∃ l, runSteps c h ⟨lines, dat, true⟩ ((g0, now0) :: steps) = .ok l ∧ List.Forall₂ (Rec.Means c h) seg l) := by
  cases hw with
  | nil =>
    constructor
    · intro l hl
      exfalso
      have : ∀ y, step c h ⟨[], dat, true⟩ g0 now0 ≠ .ok y := by
        intro y
        obtain ⟨x, hx⟩ := assign_isSome h ((g0.take 6 ++ dat).drop 6) hf
        unfold step readInto finish
        simp only [readItems, overlay, List.nil_append, List.length_nil, List.drop_zero, if_true]
        by_cases h1 : sameTime now0 (g0.take 6 ++ dat)
        · have e : seek (width c h) now0 (g0.take 6 ++ dat) [] = some (g0.take 6 ++ dat, []) := by rw [seek, if_pos h1]
          simp only [e, h1, not_true_eq_false, if_false, hx]
          simp
        · have e : seek (width c h) now0 (g0.take 6 ++ dat) [] = none := by rw [seek, if_neg h1]; simp [readItems]
          simp only [e]
          simp
      rw [runSteps] at hl
      cases hst : step c h ⟨[], dat, true⟩ g0 now0 with
      | ok y => exact this y hst
      | stop => simp [hst] at hl
      | abort => simp [hst] at hl
      | ub => simp [hst] at hl
    · intro pre seg post hseg _ hs
      have : seg = [] := (List.append_eq_nil_iff.1 (List.append_eq_nil_iff.1 hseg.symm).1).2
      subst this
      simp at hs
  | @cons r0 toks recs lines hw0 hw =>
    have hr0 := hr r0 (by simp)
    have hr' : ∀ r ∈ recs, r.Ok c h := fun r h => hr r (by simp [h])
    rcases seek_found (now := now0) hw hr' r0 hr0 with ⟨pre, r, post, rest, h1, h2, h3, h4, h5⟩ | ⟨h1, h2⟩
    · have hrm : r ∈ r0 :: recs := by rw [h1]; simp
      obtain ⟨x, hx, hm⟩ := step_first g0 now0 hf (hr r hrm) hr0 hw0 (Nat.le_of_eq hd) h3 h5
      obtain ⟨i1, i2⟩ := later_steps hf steps post rest r.rows.flatten (by rw [flat_length (hr r hrm)]) h4
        fun y hy => hr y (by rw [h1]; simp [hy])
      rw [runSteps]
      simp only [hx]
      constructor
      · intro l hl
        cases e : runSteps c h ⟨rest, r.rows.flatten, false⟩ steps with
        | ok l' =>
          simp only [e, Res.ok.injEq] at hl
          subst hl
          obtain ⟨seg, post', k1, k2, k3⟩ := i1 l' e
          exact ⟨pre, r :: seg, post', by rw [h1, k1]; simp, h2, by simp [h3, k2], .cons hm k3⟩
        | stop => simp [e] at hl
        | abort => simp [e] at hl
        | ub => simp [e] at hl
      · intro pre' seg post' hseg hpre hs
        cases seg with
        | nil => simp at hs
        | cons a seg =>
          simp only [List.map_cons, List.cons.injEq] at hs
          have heq : pre ++ r :: post = pre' ++ a :: (seg ++ post') := by
            rw [← h1, hseg]; simp
          have : pre = pre' ∧ r :: post = a :: (seg ++ post') := by
            clear * - heq hpre h2 h3 hs
            induction pre generalizing pre' with
            | nil =>
              cases pre' with
              | nil => exact ⟨rfl, heq⟩
              | cons b pre' =>
                simp only [List.nil_append, List.cons_append, List.cons.injEq] at heq
                exact absurd (heq.1 ▸ h3) (hpre b (by simp))
            | cons b pre ih =>
              cases pre' with
              | nil =>
                simp only [List.nil_append, List.cons_append, List.cons.injEq] at heq
                exact absurd (heq.1 ▸ hs.1) (h2 b (by simp))
              | cons b' pre' =>
                simp only [List.cons_append, List.cons.injEq] at heq
                obtain ⟨rfl, heq⟩ := heq
                obtain ⟨rfl, h⟩ := ih (fun x hx => h2 x (by simp [hx])) pre' (fun x hx => hpre x (by simp [hx])) heq
                exact ⟨rfl, h⟩
          obtain ⟨rfl, hh⟩ := this
          simp only [List.cons.injEq] at hh
          obtain ⟨rfl, hh⟩ := hh
          obtain ⟨l, hl, hf'⟩ := i2 seg post' hh hs.2
          exact ⟨x :: l, by simp [hl], .cons hm hf'⟩
    · have hst : step c h ⟨toks :: lines, dat, true⟩ g0 now0 = .abort := by
        have ho : overlay r0.nums (g0.take 6 ++ dat) = r0.nums := overlay_full (by
          rw [nums_length hr0, List.length_append, List.length_take]; omega)
        unfold step readInto finish
        simp only [readItems_rec hr0 hw0, ho, if_true, h2]
      rw [runSteps]
      simp only [hst]
      constructor
      · intro l hl; cases hl
      · intro pre' seg post' hseg hpre hs
        cases seg with
        | nil => simp at hs
        | cons a seg =>
          simp only [List.map_cons, List.cons.injEq] at hs
          exact absurd hs.1 (h1 a (by rw [hseg]; simp))

/-- A day before the run, two days of the run. -/
example : runSteps ⟨1, 0, 0, 0, fun _ => 1, demoTable, ["Ca".toList]⟩ ⟨[⟨0, 6⟩], [some 0]⟩
    ⟨[[.int 2000, .int 1, .int 1, .int 0, .int 0, .int 0, .int 1, .int 7, .int 5],
      [.int 2000, .int 1, .int 2, .int 0, .int 0, .int 0, .int 2, .int 7, .int 6],
      [.int 2000, .int 1, .int 3, .int 0, .int 0, .int 0, .int 3, .int 7, .int 7]], [0, 0, 0], true⟩
    [([], [2000, 1, 2, 0, 0, 0]), ([], [2000, 1, 3, 0, 0, 0])] =
      .ok [⟨⟨2, 7, [6]⟩, [], []⟩, ⟨⟨3, 7, [7]⟩, [], []⟩] := by decide +kernel

/-! ### C101 -/

/-- C101: a number that cannot be read is not noticed: it and all following numbers keep the values of the step
before. -/
theorem C101_malformed_violated (c : Conf) (h : Header) (hf : c.Full) (r : Rec) (hr : r.Ok c h) (good : List Tok) (vals : List Rat)
    (tail : List Tok) (rest : List (List Tok)) (dat g : List Rat) (hg6 : g.length = 6) (hg : good.map (Tok.value false) = vals.map some)
    (hlt : vals.length < width c h) (hd : dat.length = width c h) (hrow : r.rows.flatten = vals ++ dat.drop vals.length) :
    ∃ x s, step c h ⟨(r.time.map Tok.int ++ (good ++ .bad :: tail)) :: rest, dat, false⟩ g r.time = .ok (x, s) ∧ r.Means c h x := by
  have hgl : good.length = vals.length := by simpa using congrArg List.length hg
  have hscan : ∀ (need : List Bool) (toks : List Tok) (acc v : List Rat), List.zipWith Tok.value need toks = v.map some →
      toks.length = v.length → toks.length < need.length → scanLine need acc (toks ++ .bad :: tail) = .bad (acc ++ v) := by
    intro need
    induction need with
    | nil => intro toks acc v _ _ h; simp at h
    | cons k need ih =>
      intro toks acc v h1 h2 h3
      cases toks with
      | nil =>
        have : v = [] := List.length_eq_zero_iff.1 h2.symm
        subst this
        simp only [List.nil_append, scanLine, List.append_nil]
        cases k <;> rfl
      | cons t toks =>
        cases v with
        | nil => simp at h2
        | cons y v =>
          simp at h1 h2 h3
          rw [List.cons_append, scanLine, h1.1]
          simp only
          rw [ih toks _ v h1.2 h2 h3]
          simp
  have hread : readItems (kinds (width c h)) [] ((r.time.map Tok.int ++ (good ++ .bad :: tail)) :: rest) =
      .bad (r.time.map (fun z : Int => (z : Rat)) ++ vals) rest := by
    rw [readItems, ← List.append_assoc, hscan _ _ [] (r.time.map (fun z : Int => (z : Rat)) ++ vals)]
    · rfl
    · unfold kinds
      rw [zipWith_append' _ (by simp [hr.time]), List.map_append]
      congr 1
      · have e : (6 : Nat) = (r.time.map Tok.int).length := by simp [hr.time]
        rw [e, zipWith_replicate_left]
        simp [Tok.value]
      · obtain ⟨k, hk⟩ := Nat.le.dest (Nat.le_of_lt hlt)
        rw [← hk, ← hgl, List.replicate_add]
        have := zipWith_append' Tok.value (a := List.replicate good.length false) (a' := List.replicate k false) (b := good) (b' := []) (by simp)
        rw [List.append_nil] at this
        rw [this, zipWith_replicate_left, hg]
        simp
    · simp [hgl]
    · simp [kinds, hr.time, hgl]; omega
  obtain ⟨x, hx, hm⟩ := assign_rec hf hr
  have hov : overlay (r.time.map (fun z : Int => (z : Rat)) ++ vals) (g.take 6 ++ dat) = r.nums := by
    unfold overlay Rec.nums
    rw [hrow, List.append_assoc]
    congr 2
    rw [List.length_append, List.length_map, hr.time, ← List.drop_drop, List.drop_left' (by simp [hg6])]
  refine ⟨x, ⟨rest, r.rows.flatten, false⟩, ?_, hm⟩
  unfold step readInto finish
  simp only [hread, hov, Bool.false_eq_true, if_false]
  rw [if_neg (by simp [sameTime_rec hr]), nums_drop hr, hx]
  simp

/-- The second concentration cannot be read: the old one is used. -/
example : step ⟨1, 0, 0, 0, fun _ => 1, demoTable, ["Ca".toList]⟩ ⟨[⟨0, 6⟩], [some 0]⟩
    ⟨[[.int 2000, .int 1, .int 1, .int 0, .int 0, .int 0, .int 1, .int 7, .bad]], [3, 6, 55], false⟩ [0, 0, 0, 0, 0, 0]
    [2000, 1, 1, 0, 0, 0] = .ok (⟨⟨1, 7, [55]⟩, [], []⟩, ⟨[], [1, 7, 55], false⟩) := by decide +kernel

/-- C101: a line with too few numbers is continued with the next line: the date of the next record is taken as
concentrations. -/
theorem C101_short_violated (c : Conf) (h : Header) (a b : List Tok) (rest : List (List Tok)) (dat g : List Rat) (first : Bool)
    (now : List Int) (ha : a.length < 6 + width c h) (hg : ∀ (i : Nat) t, a[i]? = some t → t ≠ .bad ∧ (i < 6 → ∃ z, t = .int z)) :
    step c h ⟨a :: b :: rest, dat, first⟩ g now = step c h ⟨(a ++ b) :: rest, dat, first⟩ g now := by
  have hscan : ∀ (a : List Tok) (need : List Bool) (acc : List Rat), a.length < need.length →
      (∀ (i : Nat) t k, a[i]? = some t → need[i]? = some k → ∃ q, t.value k = some q) →
      ∃ n v, scanLine need acc a = .more n v ∧ scanLine need acc (a ++ b) = scanLine n v b := by
    intro a
    induction a with
    | nil =>
      intro need acc h1 _
      cases need with
      | nil => simp at h1
      | cons k need => exact ⟨_, _, by simp [scanLine], rfl⟩
    | cons t a ih =>
      intro need acc h1 h2
      cases need with
      | nil => simp at h1
      | cons k need =>
        obtain ⟨q, hq⟩ := h2 0 t k (by simp) (by simp)
        rw [List.cons_append, scanLine, scanLine, hq]
        simp only
        exact ih need _ (by simpa using h1) fun i t k h3 h4 => h2 (i + 1) t k (by simpa using h3) (by simpa using h4)
  obtain ⟨n, v, h1, h2⟩ := hscan a (kinds (width c h)) [] (by simp [kinds]; omega) (by
    intro i t k hi hk
    obtain ⟨g1, g2⟩ := hg i t hi
    by_cases h6 : i < 6
    · obtain ⟨z, rfl⟩ := g2 h6
      cases k <;> exact ⟨_, rfl⟩
    · unfold kinds at hk
      rw [List.getElem?_append_right (by simp; omega)] at hk
      have : k = false := by
        have := List.mem_of_getElem? hk
        simpa using (List.mem_replicate.1 this).2
      subst this
      cases t with
      | int z => exact ⟨_, rfl⟩
      | real q => exact ⟨_, rfl⟩
      | bad => exact absurd rfl g1)
  have : readItems (kinds (width c h)) [] (a :: b :: rest) = readItems (kinds (width c h)) [] ((a ++ b) :: rest) := by
    rw [readItems, h1]
    simp only
    rw [readItems, readItems, h2]
  unfold step readInto finish
  simp only [this]

example : step ⟨1, 0, 0, 0, fun _ => 1, demoTable, ["Ca".toList]⟩ ⟨[⟨0, 6⟩], [some 0]⟩
    ⟨[[.int 2000, .int 1, .int 1, .int 0, .int 0, .int 0, .int 1, .int 7],
      [.int 2000, .int 1, .int 2, .int 0, .int 0, .int 0, .int 2, .int 7, .int 6]], [0, 0, 0], true⟩ [] [2000, 1, 1, 0, 0, 0] =
      .ok (⟨⟨1, 7, [2000]⟩, [], []⟩, ⟨[], [1, 7, 2000], false⟩) := by decide +kernel

/-- C101: if external sources are not in the file, their temperatures and pH are those of the samples, and with fewer
samples than sources memory outside of the array is read. -/
theorem C101_sources_violated (c : Conf) (h : Header) (s : St) (g : List Rat) (now : List Int) (he : c.ext ≠ 1) :
    (c.nObs < c.nExt → ∀ y, step c h s g now ≠ .ok y) ∧
    (∀ x s' i, step c h s g now = .ok (x, s') → i < c.nExt → ∃ w w', x.ext[i]? = some w ∧ x.obs[i]? = some w' ∧
      w.temp = w'.temp ∧ w.ph = w'.ph) := by
  have hd : nDep c = 1 := by rw [nDep, if_neg he]
  have key : ∀ y, step c h s g now = .ok y → ∃ dat, assign c h dat = some y.1 := by
    intro y
    have fin : ∀ io o, finish c h now io o = .ok y → ∃ dat, assign c h dat = some y.1 := by
      intro io o hy
      cases o with
      | none => cases hy
      | some p =>
        obtain ⟨buf, rest⟩ := p
        unfold finish at hy
        cases ha : assign c h (buf.drop 6) with
        | none =>
          simp only [ha] at hy
          split_ifs at hy
        | some inp =>
          simp only [ha] at hy
          split_ifs at hy
          cases hy
          exact ⟨_, ha⟩
    exact fin _ _
  constructor
  · intro hn y hy
    obtain ⟨dat, hdat⟩ := key y hy
    unfold assign at hdat
    simp only at hdat
    rw [if_pos (by rw [nRows, hd]; omega)] at hdat
    cases hdat
  · intro x s' i hx hi
    obtain ⟨dat, hdat⟩ := key _ hx
    unfold assign at hdat
    simp only at hdat
    split_ifs at hdat with h1
    have hi' : i < c.nObs := by rw [nRows, hd] at h1; omega
    simp only [Option.some.injEq] at hdat
    rw [← hdat]
    simp only [List.getElem?_map, List.getElem?_range hi, List.getElem?_range hi', Option.map_some, Option.some.injEq]
    refine ⟨_, _, rfl, rfl, ?_, ?_⟩ <;> simp [hd, Nat.add_comm]

example : step ⟨1, 0, 1, 1, fun _ => 1, demoTable, ["Ca".toList]⟩ ⟨[⟨0, 6⟩], [some 0]⟩
    ⟨[[.int 2000, .int 1, .int 1, .int 0, .int 0, .int 0, .int 1, .int 7, .int 5, .int 22, .int 8, .int 9]], [0, 0, 0, 0, 0, 0], true⟩ []
    [2000, 1, 1, 0, 0, 0] =
      .ok (⟨⟨1, 7, [5]⟩, [⟨22, 8, [0]⟩], [⟨22, 8, [9]⟩]⟩, ⟨[], [1, 7, 5, 22, 8, 9], false⟩) := by decide +kernel

/-! ### C102 -/

/-- C102: if external sources are in the file (or there are none), precipitation and sources become solutions and
samples are recorded, each with its number. -/
theorem C102_uses_partial (c : Conf) (hf : c.Full) :
    uses c = .create 1 .precip :: (List.range c.nExt).map (fun i => .create (2 + i) (.ext (i + 1))) ++
      (List.range c.nObs).map fun j => .record (2 + c.nExt + j) (.obs (j + 1)) := by
  obtain ⟨hn, hd⟩ := nRows_full hf
  unfold uses
  rw [hn]
  apply List.ext_getElem?
  intro k
  by_cases hk : k < 1 + c.nExt + c.nObs
  · rw [List.getElem?_map, List.getElem?_range hk]
    simp only [Option.map_some]
    cases k with
    | zero => simp [useOne]
    | succ k =>
      rw [List.cons_append, List.getElem?_cons_succ]
      by_cases hk' : k < c.nExt
      · have he1 : c.ext = 1 := by rcases hf with h | h; exact h; omega
        rw [List.getElem?_append_left (by simpa using hk'), List.getElem?_map, List.getElem?_range hk']
        simp only [Option.map_some, Option.some.injEq]
        unfold useOne
        simp only [he1]
        rw [if_pos (by omega)]
        simp
        constructor
        · omega
        · omega
      · rw [List.getElem?_append_right (by simpa using hk'), List.length_map, List.length_range, List.getElem?_map,
          List.getElem?_range (by omega)]
        simp only [Option.map_some, Option.some.injEq]
        unfold useOne
        simp only
        rw [if_neg (by omega)]
        rcases hf with h | h
        · simp only [h]
          simp
          rw [if_neg (by omega)]
          simp
          omega
        · simp only [h]
          have : ¬ (k + 1 + 1 = 1) := by omega
          simp [this]
          omega
  · rw [List.getElem?_eq_none (by simp; omega), List.getElem?_eq_none (by simp; omega)]

example : uses ⟨1, 1, 2, 1, fun _ => 1, [], []⟩ =
    [.create 1 .precip, .create 2 (.ext 1), .create 3 (.ext 2), .record 4 (.obs 1)] := by decide

/-- C102: if external sources are not in the file, as many samples as there are sources become solutions and are not
recorded. -/
theorem C102_samples_violated (c : Conf) (he : c.ext = 0) (j : Nat) (hj : j < c.nObs) (hj' : j < c.nExt) :
    Use.create (2 + c.nExt + j) (.obs (j + 1)) ∈ uses c ∧ ∀ n, Use.record n (.obs (j + 1)) ∉ uses c := by
  have hd : nRows c = 1 + c.nObs := by rw [nRows, nDep, if_neg (by rw [he]; decide)]
  have hone : ∀ k, useOne c (k + 1) = if k = 0 then .create 1 .precip else if k ≤ c.nExt then .create (k + 1 + c.nExt) (.obs k)
      else .record (k + 1 + c.nExt) (.obs k) := by
    intro k
    unfold useOne
    simp only [he]
    by_cases hk : k = 0
    · subst hk; simp
    · have h1 : 1 < k + 1 := by omega
      have h2 : ¬ (k + 1 = 1) := by omega
      have h3 : ¬ (k + 1 - 1 ≤ 0) := by omega
      simp only [h1, true_and, if_true, h2, if_false, hk]
      have h4 : k + 1 + c.nExt - (1 + c.nExt) = k := by omega
      rw [h4]
      have h5 : ¬ ((0 : Int) = 1) := by decide
      simp only [h5, if_false, h3]
      by_cases h6 : k ≤ c.nExt
      · rw [if_pos (by omega), if_pos h6]
      · rw [if_neg (by omega), if_neg h6]
  unfold uses
  rw [hd]
  constructor
  · refine List.mem_map.2 ⟨j + 1, by simp; omega, ?_⟩
    rw [hone, if_neg (by omega), if_pos (by omega)]
    congr 1; omega
  · intro n hm
    obtain ⟨k, -, hk⟩ := List.mem_map.1 hm
    rw [hone] at hk
    split_ifs at hk with h1 h2
    cases hk
    omega

example : uses ⟨1, 0, 1, 2, fun _ => 1, [], []⟩ = [.create 1 .precip, .create 3 (.obs 1), .record 4 (.obs 2)] := by decide

end Verif.ObsChem
