import Verif.Lemmas.ParRead
import Verif.Lemmas.ParSafe
/- The part of a parameter file with the dimensions. -/
namespace Verif.ParFile
open Verif.CText Verif.CFile

theorem starts_dim (l : List Char) : starts dimLabel (l ++ ['\n']) = true ↔ "** Dimensions **".toList <+: l :=
  starts_newline (by decide) (by decide) l

theorem isHead_false {l : List Char} (h : ¬ IsHeader l) : isHead (l ++ ['\n']) = false := by
  cases hh : isHead (l ++ ['\n']) with
  | false => rfl
  | true => exact absurd ((take4_newline l).1 hh) h

theorem headD_at {l : List Char} (h : ¬ ['@'] <+: l) : ¬ (l ++ ['\n']).headD ' ' = '@' := by
  intro hx
  cases l with
  | nil => simp at hx
  | cons a b =>
    simp only [List.cons_append, List.headD_cons] at hx
    subst hx
    exact h ⟨b, rfl⟩

theorem takeWhile_line {l : List Char} (h : '\n' ∉ l) :
    (l ++ ['\n']).takeWhile (fun c => decide (c ≠ '\n')) = l := by
  have hw : ∀ c ∈ l, (decide (c ≠ '\n')) = true := by
    intro c hc; simp only [decide_eq_true_eq]; rintro rfl; exact h hc
  rw [List.takeWhile_append_of_pos hw]; simp

theorem fgetsKeep_fits {l : List Char} (h : Fits l) (line : List Char) (r : List (List Char)) :
    fgetsKeep line ⟨unlines (l :: r), false⟩ = (l ++ ['\n'], ⟨unlines r, false⟩) := by
  simp [fgetsKeep, fgets_fits h]

theorem dmust_line {num : Nat} {l : List Char} (h : '\n' ∉ l) (hl : l.length + 2 ≤ num) (e : Err) (ds : List Dimen)
    (r : List (List Char)) : dmust num e ds ⟨unlines (l :: r), false⟩ = .ok (l ++ ['\n'], ⟨unlines r, false⟩) := by
  rw [dmust, unlines_cons, fgets_line h hl]

theorem set_done {α β} (f : α → Option β) (D : List α) (x : α) (k : Nat) :
    (D.map f ++ List.replicate (k + 1) none).set D.length (f x) = (D ++ [x]).map f ++ List.replicate k none := by
  rw [List.set_append_right _ _ (by simp)]
  simp [List.replicate_succ]

theorem set_same {α β} (f : α → Option β) (D : List α) (x : α) (k : Nat) (h : f x = none) :
    D.map f ++ List.replicate (k + 1) none = (D ++ [x]).map f ++ List.replicate k none := by
  simp [List.replicate_succ, h]

/-- Index names and notes: `D` are those read so far, `x` and `R` the ones left, `l` the line after them. -/
theorem readNames_ok {l : List Char} (hl : Fits l) (hla : ¬ ['@'] <+: l) (r : List (List Char)) :
    ∀ (R : List (List Char × Option (List Char))) (x : List Char × Option (List Char)) (D : List (List Char × Option (List Char)))
      (size n : Nat),
      (∀ y ∈ x :: R, (∀ m ∈ idxLines y, Fits m) ∧ ¬ ['@'] <+: y.1 ∧ ¬ IsHeader y.1) → D.length + R.length + 1 = size →
      2 * R.length + 2 ≤ n →
      readNames size n D.length (D.map (fun y => some y.1) ++ List.replicate (R.length + 1) none)
        (D.map (fun y => y.2) ++ List.replicate (R.length + 1) none) (x.1 ++ ['\n'])
        ⟨unlines ((idxLines x).tail ++ R.flatMap idxLines ++ l :: r), false⟩ =
      .ok ((D ++ x :: R).map (fun y => some y.1), (D ++ x :: R).map (fun y => y.2), l ++ ['\n'], ⟨unlines r, false⟩) := by
  intro R
  induction R with
  | nil =>
    intro x D size n hok hsz hn
    obtain ⟨n, rfl⟩ : ∃ m, n = m + 2 := ⟨n - 2, by simp at hn; omega⟩
    obtain ⟨h1, h2, h3⟩ := hok x (by simp)
    have hx1 := h1 x.1 (by simp [idxLines])
    simp only [List.length_nil, Nat.add_zero, Nat.zero_add] at hsz ⊢
    rw [readNames, isHead_false h3]
    simp only [Bool.false_eq_true, if_false]
    rw [if_neg (headD_at h2), if_pos (by omega), takeWhile_line hx1.1]
    obtain ⟨nm, note⟩ := x
    cases note with
    | none =>
      simp only [idxLines, List.tail_cons, List.nil_append, List.flatMap_nil]
      rw [fgetsKeep_fits hl, if_pos ⟨hsz, headD_at hla⟩, set_done (fun y : List Char × Option (List Char) => some y.1) D (nm, none) 0,
        set_same (fun y : List Char × Option (List Char) => y.2) D (nm, none) 0 rfl]
      simp
    | some s =>
      have hs := h1 ('@' :: s) (by simp [idxLines])
      simp only [idxLines, List.tail_cons, List.flatMap_nil, List.append_nil, List.cons_append, List.nil_append]
      rw [fgetsKeep_fits hs, if_neg (by simp), set_done (fun y : List Char × Option (List Char) => some y.1) D (nm, some s) 0]
      simp only [List.cons_append]
      rw [readNames]
      rw [show isHead ('@' :: (s ++ ['\n'])) = false from by simp [isHead]]
      simp only [Bool.false_eq_true, if_false, List.headD_cons, if_true]
      rw [if_pos (by omega), fgets_fits hl]
      simp only []
      rw [if_pos ⟨hsz, headD_at hla⟩]
      have ht : ('@' :: (s ++ ['\n'])).takeWhile (fun c => decide (c ≠ '\n')) = '@' :: s := takeWhile_line hs.1
      rw [ht, List.tail_cons, Nat.add_sub_cancel,
        set_done (fun y : List Char × Option (List Char) => y.2) D (nm, some s) 0]
      simp
  | cons y R ih =>
    intro x D size n hok hsz hn
    simp only [List.length_cons] at hsz hn ⊢
    obtain ⟨n, rfl⟩ : ∃ m, n = m + 2 := ⟨n - 2, by omega⟩
    obtain ⟨h1, h2, h3⟩ := hok x (by simp)
    obtain ⟨g1, g2, g3⟩ := hok y (by simp)
    have hx1 := h1 x.1 (by simp [idxLines])
    have hy1 := g1 y.1 (by simp [idxLines])
    have hylines : ∀ r', y.1 :: ((idxLines y).tail ++ r') = idxLines y ++ r' := by intro r'; simp [idxLines]
    rw [readNames, isHead_false h3]
    simp only [Bool.false_eq_true, if_false]
    rw [if_neg (headD_at h2), if_pos (by omega), takeWhile_line hx1.1]
    have hlen : (D ++ [x]).length = D.length + 1 := by simp
    have ih' := fun m hm => ih y (D ++ [x]) size m (fun z hz => hok z (by simp only [List.mem_cons] at hz ⊢; exact Or.inr hz))
      (by simp; omega) hm
    obtain ⟨nm, note⟩ := x
    cases note with
    | none =>
      have e : (idxLines (nm, none)).tail ++ (y :: R).flatMap idxLines ++ l :: r =
          y.1 :: ((idxLines y).tail ++ R.flatMap idxLines ++ l :: r) := by simp [idxLines]
      rw [e, fgetsKeep_fits hy1, if_neg (by omega), set_done (fun y : List Char × Option (List Char) => some y.1) D (nm, none) (R.length + 1),
        set_same (fun y : List Char × Option (List Char) => y.2) D (nm, none) (R.length + 1) rfl, ← hlen, ih' (n + 1) (by omega)]
      simp
    | some s =>
      have hs := h1 ('@' :: s) (by simp [idxLines])
      have e : (idxLines (nm, some s)).tail ++ (y :: R).flatMap idxLines ++ l :: r =
          ('@' :: s) :: y.1 :: ((idxLines y).tail ++ R.flatMap idxLines ++ l :: r) := by simp [idxLines]
      rw [e, fgetsKeep_fits hs, if_neg (by simp), set_done (fun y : List Char × Option (List Char) => some y.1) D (nm, some s) (R.length + 1)]
      simp only [List.cons_append]
      rw [readNames]
      rw [show isHead ('@' :: (s ++ ['\n'])) = false from by simp [isHead]]
      simp only [Bool.false_eq_true, if_false, List.headD_cons, if_true]
      rw [if_pos (by omega), fgets_fits hy1]
      simp only []
      rw [if_neg (by omega)]
      have ht : ('@' :: (s ++ ['\n'])).takeWhile (fun c => decide (c ≠ '\n')) = '@' :: s := takeWhile_line hs.1
      rw [ht, List.tail_cons, Nat.add_sub_cancel,
        set_done (fun y : List Char × Option (List Char) => y.2) D (nm, some s) (R.length + 1), ← hlen, ih' n (by omega)]
      simp

theorem findDim_update (key : List Char) (f : Dimen → Dimen) (hf : ∀ p, (f p).name = p.name) (ds : List Dimen)
    (n : List Char) : findDim (updateDim key f ds) n = if n = key then (findDim ds n).map f else findDim ds n := by
  induction ds with
  | nil => simp [updateDim, findDim]
  | cons p r ih =>
    simp only [findDim] at ih ⊢
    simp only [updateDim]
    by_cases hp : p.name = key
    · simp only [hp, if_true, List.find?_cons, hf]
      by_cases hn : n = key
      · subst hn; simp
      · simp [hn, Ne.symm hn]
    · simp only [hp, if_false, List.find?_cons]
      by_cases hn : p.name = n
      · have : n ≠ key := fun e => hp (hn.trans e)
        simp [hn, this]
      · simp only [hn, decide_false]; exact ih

theorem findDim_isSome (key : List Char) (f : Dimen → Dimen) (hf : ∀ p, (f p).name = p.name) (ds : List Dimen)
    (n : List Char) : findDim (updateDim key f ds) n = none ↔ findDim ds n = none := by
  rw [findDim_update key f hf]
  split <;> simp

theorem not_label_header {h : List Char} : ¬ "** Parameters **".toList <+: "####".toList ++ h := by
  rintro ⟨t, ht⟩
  have := congrArg List.head? ht
  simp at this

/-- One block of the dimensions; `l` is the line after it. -/
theorem readDim_ok {fuel : Nat} {ds : List Dimen} {b : DimBlock} (hb : b.Ok ds) {d : Dimen}
    (hd : findDim ds b.name = some d) (hn : d.names = none ∧ d.notes = none) {l : List Char} (hl : Fits l)
    (hl2 : IsHeader l ∨ "** Parameters **".toList <+: l) (r : List (List Char)) (hsz : b.idx.length + 2 ≤ fuel) :
    ∃ ds', readDim fuel ds b.name ⟨unlines ((decimal b.size ++ b.pad) :: b.idx.flatMap idxLines ++ l :: r), false⟩ =
        .ok (ds', l ++ ['\n'], ⟨unlines r, false⟩) ∧
      (∀ n, findDim ds' n = none ↔ findDim ds n = none) ∧ dimOf ds' = dassign (dimOf ds) b := by
  have hlines := hb.lines
  have f1 : Fits (decimal b.size ++ b.pad) := hlines _ (by simp [DimBlock.lines])
  have hsome : dimOf ds b.name ≠ none := by simp [dimOf, hd]
  have hla : ¬ ['@'] <+: l := by
    rintro ⟨t, rfl⟩
    rcases hl2 with ⟨t2, ht⟩ | ⟨t2, ht⟩
    · simp at ht
    · have := congrArg List.head? ht; simp at this
  rw [readDim, List.cons_append, dmust_line f1.1 (by have := f1.2; show _ ≤ 256; omega)]
  simp only [DOut.bind]
  rw [atoi_tail _ hb.pad]
  -- the first change of the table
  generalize hf1 : (fun d : Dimen => if d.value = (b.size : Int) then d else
    { d with value := (b.size : Int), names := resizeNames b.size d.names, notes := resizeNames b.size d.notes }) = g1
  have hg1n : ∀ p, (g1 p).name = p.name := by intro p; rw [← hf1]; simp only; split <;> rfl
  have hg1 : g1 d = { d with value := (b.size : Int) } := by
    rw [← hf1]; simp only
    split
    · rename_i he; rw [← he]
    · rw [hn.1, hn.2]; obtain ⟨a1, a2, a3, a4⟩ := d; simp [resizeNames]
  have hd1 : findDim (updateDim b.name g1 ds) b.name = some { d with value := (b.size : Int) } := by
    rw [findDim_update _ _ hg1n]; simp [hd, hg1]
  have hother : ∀ n, n ≠ b.name → findDim (updateDim b.name g1 ds) n = findDim ds n := by
    intro n hne; rw [findDim_update _ _ hg1n, if_neg hne]
  cases hidx : b.idx with
  | nil =>
    simp only [List.flatMap_nil, List.nil_append]
    rw [fgets_fits hl]
    simp only []
    rcases hl2 with hh | hlab
    · have hns : starts parLabel (l ++ ['\n']) = false := by
        obtain ⟨t, rfl⟩ := hh
        exact starts_par_false (not_label_header (h := t))
      rw [hns]
      simp only [Bool.false_eq_true, if_false]
      rw [(take4_newline l).2 hh, if_pos rfl]
      refine ⟨_, rfl, ?_, ?_⟩
      · intro n; rw [findDim_isSome _ (fun d => { d with names := none, notes := none }) (fun _ => rfl),
          findDim_isSome _ _ hg1n]
      · funext n
        unfold dassign
        by_cases hne : n = b.name
        · subst hne
          rw [if_pos ⟨rfl, hsome⟩, if_pos hidx]
          unfold dimOf
          rw [findDim_update _ (fun d => { d with names := none, notes := none }) (fun _ => rfl), if_pos rfl, hd1]
          rfl
        · rw [if_neg (fun h => hne h.1)]
          unfold dimOf
          rw [findDim_update _ (fun d => { d with names := none, notes := none }) (fun _ => rfl), if_neg hne, hother n hne]
    · rw [(starts_par l).2 hlab, if_pos rfl]
      refine ⟨_, rfl, ?_, ?_⟩
      · intro n; rw [findDim_isSome _ _ hg1n]
      · funext n
        unfold dassign
        by_cases hne : n = b.name
        · subst hne
          rw [if_pos ⟨rfl, hsome⟩, if_pos hidx]
          unfold dimOf
          rw [hd1]
          simp [hn]
        · rw [if_neg (fun h => hne h.1)]
          unfold dimOf
          rw [hother n hne]
  | cons x R =>
    have hx := hb.idx x (by simp [hidx])
    have hcount : b.size = R.length + 1 := by
      rcases hb.count with h | h
      · simp [hidx] at h
      · rw [← h, hidx]; simp
    have hidxl : ∀ y ∈ x :: R, (∀ m ∈ idxLines y, Fits m) ∧ ¬ ['@'] <+: y.1 ∧ ¬ IsHeader y.1 := by
      intro y hy
      rw [← hidx] at hy
      have := hb.idx y hy
      refine ⟨?_, this.1, this.2.1⟩
      intro m hm
      apply hlines
      simp only [DimBlock.lines, List.mem_cons, List.mem_flatMap]
      exact Or.inr (Or.inr (Or.inr ⟨y, hy, hm⟩))
    have fx : Fits x.1 := (hidxl x (by simp)).1 x.1 (by simp [idxLines])
    have e : (x :: R).flatMap idxLines ++ l :: r = x.1 :: ((idxLines x).tail ++ R.flatMap idxLines ++ l :: r) := by
      simp [idxLines]
    rw [e, fgets_fits fx]
    simp only []
    rw [starts_par_false hx.2.2, isHead_false hx.2.1]
    simp only [Bool.false_eq_true, if_false]
    have hnames := readNames_ok hl hla r R x [] b.size (fuel + b.size) hidxl (by simp; omega)
      (by rw [hidx] at hsz; simp at hsz; omega)
    simp only [List.length_nil, List.map_nil, List.nil_append] at hnames
    rw [Int.toNat_natCast, show List.replicate b.size (none : Option (List Char)) = List.replicate (R.length + 1) none by rw [hcount],
      hnames]
    refine ⟨_, rfl, ?_, ?_⟩
    · intro n
      rw [findDim_isSome _ (fun d => { d with names := some _, notes := some _ }) (fun _ => rfl),
        findDim_isSome _ (fun d => { d with names := none, notes := none }) (fun _ => rfl), findDim_isSome _ _ hg1n]
    · funext n
      unfold dassign
      by_cases hne : n = b.name
      · subst hne
        rw [if_pos ⟨rfl, hsome⟩, if_neg (by rw [hidx]; simp)]
        unfold dimOf
        rw [findDim_update _ (fun d => { d with names := some _, notes := some _ }) (fun _ => rfl), if_pos rfl,
          findDim_update _ (fun d => { d with names := none, notes := none }) (fun _ => rfl), if_pos rfl, hd1, hidx]
        rfl
      · rw [if_neg (fun h => hne h.1)]
        unfold dimOf
        rw [findDim_update _ (fun d => { d with names := some _, notes := some _ }) (fun _ => rfl), if_neg hne,
          findDim_update _ (fun d => { d with names := none, notes := none }) (fun _ => rfl), if_neg hne, hother n hne]

theorem DimBlock.Ok.mono {ds ds' : List Dimen} (h : ∀ n, findDim ds' n = none ↔ findDim ds n = none) {b : DimBlock}
    (hb : b.Ok ds) : b.Ok ds' := { hb with declared := fun hx => hb.declared ((h _).1 hx) }

/-- The blocks one after the other. -/
theorem dimLoop_ok {fuel : Nat} {lab : List Char} (hlab : Fits ("** Parameters **".toList ++ lab)) (rest : List (List Char)) :
    ∀ (bs : List DimBlock) (ds : List Dimen) (n : Nat) (l : List Char) (r : List (List Char)),
      (∀ b ∈ bs, b.Ok ds) → (bs.map DimBlock.name).Nodup →
      (∀ b ∈ bs, ∀ d, findDim ds b.name = some d → d.names = none ∧ d.notes = none) →
      bs.flatMap DimBlock.lines ++ ("** Parameters **".toList ++ lab) :: rest = l :: r →
      bs.length + 1 ≤ n → (∀ b ∈ bs, b.idx.length + 2 ≤ fuel) →
      ∃ ds', dimLoop fuel n ds (l ++ ['\n']) ⟨unlines r, false⟩ = .ret none ds' ∧ dimOf ds' = bs.foldl dassign (dimOf ds)
  | [], ds, n, l, r, _, _, _, hlr, hn, _ => by
    obtain ⟨n, rfl⟩ : ∃ m, n = m + 1 := ⟨n - 1, by simp at hn; omega⟩
    simp only [List.flatMap_nil, List.nil_append, List.cons.injEq] at hlr
    refine ⟨ds, ?_, rfl⟩
    rw [dimLoop, ← hlr.1, (starts_par _).2 ⟨lab, rfl⟩, if_pos rfl]
  | b :: bs, ds, n, l, r, hok, hnd, hnone, hlr, hn, hf => by
    obtain ⟨n, rfl⟩ : ∃ m, n = m + 1 := ⟨n - 1, by simp at hn; omega⟩
    have hb := hok b (by simp)
    have hlines := hb.lines
    have f2 : Fits b.name := hlines _ (by simp [DimBlock.lines])
    have f3 : Fits (decimal b.size ++ b.pad) := hlines _ (by simp [DimBlock.lines])
    -- the line after the block
    obtain ⟨l2, r2, h2, hl2f, hl2⟩ : ∃ l2 r2, bs.flatMap DimBlock.lines ++ ("** Parameters **".toList ++ lab) :: rest = l2 :: r2 ∧
        Fits l2 ∧ (IsHeader l2 ∨ "** Parameters **".toList <+: l2) := by
      cases bs with
      | nil => exact ⟨_, _, rfl, hlab, Or.inr ⟨lab, rfl⟩⟩
      | cons c cs =>
        exact ⟨"####".toList ++ c.hd, _, by rw [List.flatMap_cons, DimBlock.lines, List.cons_append, List.cons_append],
          (hok c (by simp)).lines _ (by simp [DimBlock.lines]), Or.inl ⟨c.hd, rfl⟩⟩
    simp only [List.flatMap_cons, List.append_assoc, h2] at hlr
    simp only [DimBlock.lines, List.cons_append, List.cons.injEq] at hlr
    obtain ⟨rfl, rfl⟩ := hlr
    have hns : starts parLabel (("####".toList ++ b.hd) ++ ['\n']) = false :=
      starts_par_false (not_label_header (h := b.hd))
    have hh : isHead (("####".toList ++ b.hd) ++ ['\n']) = true := (take4_newline _).2 ⟨b.hd, rfl⟩
    have hnd' := (List.nodup_cons.1 hnd)
    rw [dimLoop, hns, hh]
    simp only [Bool.false_eq_true, if_false, Bool.not_true]
    rw [dmust_line f2.1 (by have := hb.name; show _ ≤ 50; omega)]
    simp only [DOut.bind, List.dropLast_concat]
    cases hd : findDim ds b.name with
    | none =>
      have hi := hb.declared hd
      simp only []
      rw [hi]
      simp only [List.flatMap_nil, List.nil_append]
      rw [fgetsKeep_fits f3]
      simp only []
      rw [fgetsKeep_fits hl2f]
      simp only []
      obtain ⟨ds', g1, g2⟩ := dimLoop_ok hlab rest bs ds n l2 r2 (fun c hc => hok c (by simp [hc])) hnd'.2
        (fun c hc => hnone c (by simp [hc])) h2 (by simp at hn; omega) (fun c hc => hf c (by simp [hc]))
      refine ⟨ds', g1, ?_⟩
      rw [g2, List.foldl_cons]
      congr 1
      funext m
      unfold dassign
      rw [if_neg]
      rintro ⟨rfl, hx⟩
      exact hx (by simp [dimOf, hd])
    | some d =>
      simp only []
      obtain ⟨ds1, k1, k2, k3⟩ := readDim_ok (fuel := fuel) hb hd (hnone b (by simp) d hd) hl2f hl2 r2 (hf b (by simp))
      simp only [List.cons_append] at k1
      rw [k1]
      simp only []
      obtain ⟨ds', g1, g2⟩ := dimLoop_ok hlab rest bs ds1 n l2 r2 (fun c hc => (hok c (by simp [hc])).mono k2) hnd'.2
        (by
          intro c hc e he
          have hne : c.name ≠ b.name := by
            intro hx; apply hnd'.1; rw [← hx]; exact List.mem_map.2 ⟨c, hc, rfl⟩
          have h3 := congrFun k3 c.name
          simp only [dassign, hne, false_and, if_false] at h3
          simp only [dimOf, he, Option.map_some] at h3
          cases hds : findDim ds c.name with
          | none => rw [hds] at h3; simp at h3
          | some e0 =>
            rw [hds] at h3
            simp only [Option.map_some, Option.some.injEq, Prod.mk.injEq] at h3
            have := hnone c (by simp [hc]) e0 hds
            rw [h3.2.1, h3.2.2]; exact this)
        h2 (by simp at hn; omega) (fun c hc => hf c (by simp [hc]))
      exact ⟨ds', g1, by rw [g2, k3, List.foldl_cons]⟩

theorem skipComments_ok (ds : List Dimen) {lab : List Char} (hlab : '\n' ∉ lab ∧ lab.length ≤ 62) (r : List (List Char)) :
    ∀ (cs : List (List Char)), (∀ l ∈ cs, '\n' ∉ l ∧ l.length ≤ 78 ∧ ¬ "** Dimensions **".toList <+: l) →
    ∀ (c : List Char), ¬ "** Dimensions **".toList <+: c → ∀ (k n : Nat), k + cs.length ≤ 1000 → cs.length + 1 ≤ n →
    skipComments ds n k (c ++ ['\n']) ⟨unlines (cs ++ ("** Dimensions **".toList ++ lab) :: r), false⟩ = .ok ⟨unlines r, false⟩
  | [], _, c, hc, k, n, hk, hn => by
    obtain ⟨n, rfl⟩ : ∃ m, n = m + 1 := ⟨n - 1, by simp at hn; omega⟩
    have h0 : starts dimLabel (c ++ ['\n']) = false := by
      cases hh : starts dimLabel (c ++ ['\n']) with
      | false => rfl
      | true => exact absurd ((starts_dim c).1 hh) hc
    have hl : '\n' ∉ "** Dimensions **".toList ++ lab ∧ ("** Dimensions **".toList ++ lab).length + 2 ≤ 256 := by
      refine ⟨?_, ?_⟩
      · rw [List.mem_append, not_or]; exact ⟨by decide, hlab.1⟩
      · rw [List.length_append]; have := hlab.2
        show 16 + lab.length + 2 ≤ 256
        omega
    rw [skipComments, h0, List.nil_append, dmust_line (num := MAXLNLEN) hl.1 hl.2]
    simp only [Bool.false_eq_true, if_false, DOut.bind]
    rw [(starts_dim _).2 ⟨lab, rfl⟩, if_pos rfl]
  | d :: cs, hok, c, hc, k, n, hk, hn => by
    obtain ⟨n, rfl⟩ : ∃ m, n = m + 1 := ⟨n - 1, by simp at hn; omega⟩
    obtain ⟨d1, d2, d3⟩ := hok d (by simp)
    have h0 : starts dimLabel (c ++ ['\n']) = false := by
      cases hh : starts dimLabel (c ++ ['\n']) with
      | false => rfl
      | true => exact absurd ((starts_dim c).1 hh) hc
    have h1 : starts dimLabel (d ++ ['\n']) = false := by
      cases hh : starts dimLabel (d ++ ['\n']) with
      | false => rfl
      | true => exact absurd ((starts_dim d).1 hh) d3
    rw [skipComments, h0, List.cons_append, dmust_line d1 (by show d.length + 2 ≤ 256; omega)]
    simp only [Bool.false_eq_true, if_false, DOut.bind]
    rw [h1]
    simp only [Bool.false_eq_true, if_false]
    rw [if_neg (by simp at hk; omega)]
    exact skipComments_ok ds hlab r cs (fun x hx => hok x (by simp [hx])) d d3 (k + 1) n (by simp at hk; omega) (by simp at hn; omega)

theorem readDims_ok {ds : List Dimen} {f : DimFile} (hf : f.Ok ds)
    (hnone : ∀ d ∈ ds, d.names = none ∧ d.notes = none) :
    ∃ ds', readDims ds (some (unlines f.lines)) = .ret none ds' ∧ dimOf ds' = f.blocks.foldl dassign (dimOf ds) := by
  have hu := unlines_length f.lines
  generalize htl : (unlines f.lines).length = T at hu
  have hlab : '\n' ∉ "** Dimensions **".toList ++ f.label ∧ ("** Dimensions **".toList ++ f.label).length + 2 ≤ 80 := by
    refine ⟨?_, ?_⟩
    · rw [List.mem_append, not_or]; exact ⟨by decide, hf.label.1⟩
    · rw [List.length_append]; have := hf.label.2
      show 16 + f.label.length + 2 ≤ 80
      omega
  -- what follows the label
  generalize hr : f.blocks.flatMap DimBlock.lines ++ ("** Parameters **".toList ++ f.plabel) :: f.rest = R
  obtain ⟨l, r, hlr⟩ : ∃ l r, R = l :: r := by
    cases hR : R with
    | nil => rw [hR] at hr; simp at hr
    | cons l r => exact ⟨l, r, rfl⟩
  have hlf : Fits l := by
    cases hb : f.blocks with
    | nil =>
      rw [hb] at hr; simp only [List.flatMap_nil, List.nil_append, hlr, List.cons.injEq] at hr
      rw [← hr.1]; exact hf.plabel
    | cons c cs =>
      rw [hb] at hr
      simp only [List.flatMap_cons, DimBlock.lines, List.cons_append, hlr, List.cons.injEq] at hr
      rw [← hr.1]; exact (hf.blocks c (by simp [hb])).lines _ (by simp [DimBlock.lines])
  have hlines : f.lines = f.info :: f.version :: (f.comments ++ ("** Dimensions **".toList ++ f.label) :: R) := by
    rw [← hr]; rfl
  have hbl : f.blocks.length + 1 ≤ T ∧ (∀ b ∈ f.blocks, b.idx.length + 2 ≤ T + 2) ∧ f.comments.length + 2 ≤ T := by
    have h1 : ∀ bs : List DimBlock, bs.length ≤ (bs.flatMap DimBlock.lines).length ∧
        ∀ b ∈ bs, b.idx.length ≤ (bs.flatMap DimBlock.lines).length := by
      intro bs
      induction bs with
      | nil => simp
      | cons b bs ih =>
        have h2 : ∀ i : List (List Char × Option (List Char)), i.length ≤ (i.flatMap idxLines).length := by
          intro i
          induction i with
          | nil => simp
          | cons a i ih => simp only [List.flatMap_cons, idxLines, List.length_append, List.length_cons] at ih ⊢; omega
        have h3 := h2 b.idx
        have h4 : b.lines.length = 3 + (b.idx.flatMap idxLines).length := by
          simp only [DimBlock.lines, List.length_cons]; omega
        refine ⟨by simp only [List.flatMap_cons, List.length_append, List.length_cons]; omega, ?_⟩
        intro c hc
        simp only [List.flatMap_cons, List.length_append]
        simp only [List.mem_cons] at hc
        rcases hc with rfl | hc
        · omega
        · have := ih.2 c hc; omega
    have h2 := h1 f.blocks
    rw [hlines, ← hr] at hu
    simp only [List.length_cons, List.length_append] at hu
    exact ⟨by omega, fun b hb => by have := h2.2 b hb; omega, by omega⟩
  obtain ⟨ds', g1, g2⟩ := dimLoop_ok (fuel := T + 2) hf.plabel f.rest f.blocks ds (T + 2) l r hf.blocks hf.once
    (fun b _ d hd => hnone d (by have := List.mem_of_find?_eq_some hd; exact this)) (hr.trans hlr) (by omega) hbl.2.1
  refine ⟨ds', ?_, g2⟩
  rw [readDims]
  simp only [htl, openText]
  rw [hlines, dmust_line hf.info.1 (by have := hf.info.2; show _ ≤ 80; omega)]
  simp only [DOut.bind]
  rw [dmust_line hf.version.1 (by have := hf.version.2; show _ ≤ 80; omega)]
  simp only []
  have hfin : (dmust MAXLNLEN .dimEnd ds ⟨unlines R, false⟩).bind (fun d => dimLoop (T + 2) (T + 2) ds d.1 d.2) = .ret none ds' := by
    rw [hlr, dmust_line hlf.1 (by have := hlf.2; show _ ≤ 256; omega)]
    exact g1
  cases hcs : f.comments with
  | nil =>
    rw [List.nil_append, dmust_line (num := MAXINFOLEN) hlab.1 hlab.2]
    simp only []
    rw [skipComments, (starts_dim _).2 ⟨f.label, rfl⟩, if_pos rfl]
    exact hfin
  | cons c cs =>
    obtain ⟨c1, c2, c3⟩ := hf.comments c (by simp [hcs])
    have hnum := hf.number
    rw [hcs] at hnum
    have hb3 := hbl.2.2
    rw [hcs] at hb3
    simp only [List.length_cons] at hnum hb3
    rw [List.cons_append, dmust_line c1 (by show _ ≤ 80; omega)]
    simp only []
    rw [skipComments_ok ds hf.label R cs (fun x hx => hf.comments x (by simp [hcs, hx])) c c3 0 (T + 2) (by omega) (by omega)]
    exact hfin

/-! ### Any text -/

def DOut.Sat {α : Type} (F : Fault → Prop) (R : List Dimen → Prop) (Q : α → Prop) : DOut α → Prop
  | .bad f => F f
  | .ret _ ds => R ds
  | .ok a => Q a

theorem DOut.Sat.bind {α β : Type} {F : Fault → Prop} {R : List Dimen → Prop} {Q : α → Prop} {Q' : β → Prop} {x : DOut α}
    {g : α → DOut β} (h : x.Sat F R Q) (hg : ∀ a, Q a → (g a).Sat F R Q') : (x.bind g).Sat F R Q' := by
  cases x with
  | bad f => exact h
  | ret e db => exact h
  | ok a => exact hg a h

/-- What reading `text` keeps of the dimensions. -/
structure DKept (text : List Char) (ds0 ds : List Dimen) : Prop where
  names : ds.map Dimen.name = ds0.map Dimen.name
  other : ∀ n, ¬ n <:+: text → findDim ds n = findDim ds0 n

theorem names_updateDim (key : List Char) (f : Dimen → Dimen) (hf : ∀ d, (f d).name = d.name) (ds : List Dimen) :
    (updateDim key f ds).map Dimen.name = ds.map Dimen.name := by
  induction ds with
  | nil => rfl
  | cons d r ih =>
    simp only [updateDim]
    split
    · simp [hf]
    · simp [ih]

theorem DKept.update {text : List Char} {ds0 ds : List Dimen} (h : DKept text ds0 ds) {key : List Char} (hk : key <:+: text)
    (f : Dimen → Dimen) (hf : ∀ d, (f d).name = d.name) : DKept text ds0 (updateDim key f ds) := by
  refine ⟨(names_updateDim key f hf ds).trans h.names, ?_⟩
  intro n hn
  rw [findDim_update key f hf]
  split
  · rename_i he; exact absurd (he ▸ hk) hn
  · exact h.other n hn

def DFault (f : Fault) : Prop := f = .names ∨ f = .comments ∨ f = .hang

section
variable {text : List Char} {ds0 : List Dimen}

theorem dmust_in {num n : Nat} (hn : 2 ≤ num) {ds : List Dimen} (hk : DKept text ds0 ds) {st : Stream} (h : In text n st)
    (e : Err) : (dmust num e ds st).Sat DFault (DKept text ds0) fun r => 0 < n ∧ r.1 <:+: text ∧ In text (n - 1) r.2 := by
  unfold dmust
  cases hg : fgets num st with
  | none => exact hk
  | some r => exact fgets_in hn h hg

theorem fgetsKeep_in {n : Nat} (line : List Char) {st : Stream} (h : In text n st) : In text n (fgetsKeep line st).2 := by
  unfold fgetsKeep
  cases hg : fgets MAXLNLEN st with
  | none => exact ⟨List.nil_suffix, by simp⟩
  | some r => exact (fgets_in (by decide) h hg).2.2.mono (by omega)

theorem readNames_in : ∀ (size fuel i : Nat) (names notes : List (Option (List Char))) (line : List Char) (st : Stream) (n : Nat),
    In text n st → i ≤ size → n + (size - i) + 1 ≤ fuel →
    (readNames size fuel i names notes line st).Sat DFault (DKept text ds0) fun r => In text n r.2.2.2
  | _, 0, _, _, _, _, _, n, _, _, hf => absurd hf (by omega)
  | size, fuel + 1, i, names, notes, line, st, n, h, hi, hf => by
    rw [readNames]
    split
    · exact h
    · simp only []
      split
      · split
        · cases hg : fgets MAXLNLEN st with
          | none => exact Or.inr (Or.inr rfl)
          | some r =>
            obtain ⟨h1, _, h2⟩ := fgets_in (by decide) h hg
            simp only []
            split
            · exact h2.mono (by omega)
            · have := readNames_in size fuel i names (notes.set (i - 1) (some (line.takeWhile fun c => c ≠ '\n').tail)) r.1 r.2 (n - 1) h2 hi (by omega)
              revert this
              cases readNames size fuel i names (notes.set (i - 1) (some (line.takeWhile fun c => c ≠ '\n').tail)) r.1 r.2 with
              | bad f => exact id
              | ret e db => exact id
              | ok a => exact fun h => In.mono h (by omega)
        · exact Or.inl rfl
      · split
        · have hk := fgetsKeep_in line h
          split
          · exact hk
          · exact readNames_in size fuel (i + 1) _ _ _ _ n hk (by omega) (by omega)
        · exact Or.inl rfl

theorem readDim_in {fuel : Nat} {ds : List Dimen} (hk : DKept text ds0 ds) {key : List Char} (hkey : key <:+: text)
    {st : Stream} {n : Nat} (h : In text n st) (hf : n + 1 ≤ fuel) :
    (readDim fuel ds key st).Sat DFault (DKept text ds0) fun r => DKept text ds0 r.1 ∧ In text n r.2.2 := by
  unfold readDim
  refine (dmust_in (by decide) hk h _).bind fun r hr => ?_
  simp only []
  have hk1 : DKept text ds0 (updateDim key (fun d => if d.value = atoi r.1 then d else
      { d with value := atoi r.1, names := resizeNames (atoi r.1) d.names, notes := resizeNames (atoi r.1) d.notes }) ds) :=
    hk.update hkey _ (fun d => by split <;> rfl)
  cases hg : fgets MAXLNLEN r.2 with
  | none => exact hk1
  | some x =>
    obtain ⟨l, st'⟩ := x
    obtain ⟨h1, _, h2⟩ := fgets_in (by decide) hr.2.2 hg
    have h3 : In text n st' := h2.mono (by omega)
    simp only []
    split
    · exact ⟨hk1, h3⟩
    · have hk2 := hk1.update hkey (fun d => { d with names := none, notes := none }) (fun _ => rfl)
      split
      · exact ⟨hk2, h3⟩
      · refine (readNames_in _ _ _ _ _ _ _ n h3 (by omega) (by omega)).bind fun y hy => ?_
        exact ⟨hk2.update hkey _ (fun _ => rfl), hy⟩

theorem findDim_mem {ds : List Dimen} {n : List Char} {d : Dimen} (h : findDim ds n = some d) : d.name = n := by
  have := List.find?_some h; simpa using this

theorem dimLoop_in {fuel : Nat} : ∀ (m : Nat) (ds : List Dimen) (line : List Char) (st : Stream) (n : Nat),
    DKept text ds0 ds → In text n st → n + 1 ≤ fuel → n + 1 ≤ m →
    (dimLoop fuel m ds line st).Sat DFault (DKept text ds0) fun _ => False
  | 0, _, _, _, n, _, _, _, hm => absurd hm (by omega)
  | m + 1, ds, line, st, n, hk, h, hf, hm => by
    rw [dimLoop]
    split
    · exact hk
    · split
      · exact hk
      · refine (dmust_in (by decide) hk h _).bind fun r hr => ?_
        obtain ⟨h1, h2, h3⟩ := hr
        simp only []
        split
        · exact dimLoop_in m _ _ _ (n - 1) hk (fgetsKeep_in _ (fgetsKeep_in _ h3)) (by omega) (by omega)
        · have hkey : r.1.dropLast <:+: text := (List.dropLast_prefix r.1).isInfix.trans h2
          refine (readDim_in hk hkey h3 (by omega)).bind fun x hx => ?_
          exact dimLoop_in m _ _ _ (n - 1) hx.1 hx.2 (by omega) (by omega)

theorem skipComments_in {ds : List Dimen} (hk : DKept text ds0 ds) : ∀ (fuel k : Nat) (line : List Char) (st : Stream) (n : Nat),
    In text n st → n + 1 ≤ fuel →
    (skipComments ds fuel k line st).Sat DFault (DKept text ds0) fun st' => In text n st'
  | 0, _, _, _, n, _, hf => absurd hf (by omega)
  | fuel + 1, k, line, st, n, h, hf => by
    rw [skipComments]
    split
    · exact h
    · refine (dmust_in (by decide) hk h _).bind fun r hr => ?_
      obtain ⟨h1, h2, h3⟩ := hr
      split
      · exact h3.mono (by omega)
      · split
        · exact Or.inr (Or.inl rfl)
        · have := skipComments_in hk fuel (k + 1) r.1 r.2 (n - 1) h3 (by omega)
          revert this
          cases skipComments ds fuel (k + 1) r.1 r.2 with
          | bad f => exact id
          | ret e db => exact id
          | ok a => exact fun h => In.mono h (by omega)

end

theorem readDims_in (ds : List Dimen) (text : List Char) :
    (readDims ds (some text)).Sat DFault (DKept text ds) fun _ => False := by
  have hk : DKept text ds ds := ⟨rfl, fun _ _ => rfl⟩
  have hin : In text text.length (openText text) := ⟨List.suffix_refl _, Nat.le_refl _⟩
  unfold readDims
  simp only []
  refine (dmust_in (by decide) hk hin _).bind fun a ha => ?_
  refine (dmust_in (by decide) hk ha.2.2 _).bind fun b hb => ?_
  refine (dmust_in (by decide) hk hb.2.2 _).bind fun c hc => ?_
  refine (skipComments_in hk _ _ _ _ text.length (hc.2.2.mono (by omega)) (by omega)).bind fun st hst => ?_
  refine (dmust_in (by decide) hk hst _).bind fun d hd => ?_
  exact dimLoop_in _ _ _ _ text.length hk (hd.2.2.mono (by omega)) (by omega) (by omega)

end Verif.ParFile
