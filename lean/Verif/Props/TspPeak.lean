import Verif.Lemmas.TspPeak
import Verif.Props.TspStat
/-
C139: peaks and events of hydrographs in TSPROC (HYDRO_PEAKS, HYDRO_EVENTS).
-/
namespace Verif.Tsp

/-- The loop ends with an invariant. -/
private theorem peaks_ind {w m : Rat} {l : List Pt} (I : Nat → Int × Int × List (Nat × Pt) → Prop) {f : Pt} (hf : l.head? = some f)
    (h0 : I 1 (f.d, int f.v, []))
    (hstep : ∀ j s a b c, l.dropLast[j]? = some a → l.dropLast[j + 1]? = some b → l.dropLast[j + 2]? = some c → I (j + 1) s →
      I (j + 2) (peakStep w m (j + 1) s a b c)) :
    ∃ k s, l.dropLast.length ≤ k + 1 ∧ I k s ∧ peaksOf w m l = s.2.2.reverse := by
  cases l with
  | nil => cases hf
  | cons a r =>
    simp only [List.head?_cons, Option.some.injEq] at hf
    subst hf
    obtain ⟨k, s, h1, h2, h3⟩ := peakLoop_ind I hstep (a :: r).dropLast 0 (a.d, int a.v, []) rfl h0
    exact ⟨k, s, h1, h2, by unfold peaksOf; simp only; rw [h3]⟩

private theorem inv_start (w : Rat) (L : List Pt) (f : Pt) : PeakInv w L f 1 (f.d, int f.v, []) :=
  ⟨by simp, List.Pairwise.nil, fun _ => ⟨rfl, rfl⟩, by simp⟩

private theorem top_bound {L : List Pt} {i k : Nat} {p : Pt} (h : Top L i p) (hk : L.length ≤ k + 1) : i < k := by
  obtain ⟨-, -, -, c, hc, -⟩ := h
  have := (List.getElem?_eq_some_iff.mp hc).1
  omega

/-- Peaks are tops of the series, in order of time, and more than WINDOW days apart. -/
theorem C139_peaks (w m : Rat) (l : List Pt) (hl : Days l) :
    (∀ x ∈ peaksOf w m l, TopAt l x.1 x.2) ∧
    (peaksOf w m l).Pairwise fun x y => x.1 < y.1 ∧ w < ((y.2.d - x.2.d : Int) : Rat) := by
  cases hf : l.head? with
  | none =>
    rw [List.head?_eq_none_iff] at hf
    subst hf
    exact ⟨by simp [peaksOf], by simp [peaksOf]⟩
  | some f =>
    obtain ⟨k, s, -, hI, e⟩ := peaks_ind (w := w) (m := m) (PeakInv w l.dropLast f) hf (inv_start _ _ _)
      (fun j s a b c ha hb hc h => inv_step (days_dropLast hl) j s a b c ha hb hc h)
    rw [e]
    refine ⟨fun x hx => (top_iff l _ _).mp (hI.top x (List.mem_reverse.mp hx)).1, ?_⟩
    rw [List.pairwise_reverse]
    exact hI.order

/-- For whole values: a top above MIN_PEAK that is more than WINDOW after the first term is a peak, or has a peak at least as high with
no other peak between.  Missing: values that are not whole, because the height of the last peak is kept as an integer
(`C139_truncated_violated`), and the beginning of the series (`C139_start_violated`). -/
theorem C139_dominated_partial (w m : Rat) (l : List Pt) (hl : Days l) (hv : ∀ p ∈ l, ∃ n : Int, p.v = n) (f : Pt) (hf : l.head? = some f)
    (i : Nat) (p : Pt) (ht : TopAt l i p) (hm : m < p.v) (hw : w < ((p.d - f.d : Int) : Rat)) :
    ∃ q ∈ peaksOf w m l, p.v ≤ q.2.v ∧ ∀ x ∈ peaksOf w m l, ¬ (i < x.1 ∧ x.1 < q.1) ∧ ¬ (q.1 < x.1 ∧ x.1 < i) := by
  obtain ⟨k, s, hk, hI, e⟩ := peaks_ind (w := w) (m := m)
    (fun k s => PeakInv w l.dropLast f k s ∧ Dominated w m l.dropLast f k s.2.2) hf
    ⟨inv_start _ _ _, fun i p h hk => by have := h.1; omega⟩
    (fun j s a b c ha hb hc h => ⟨inv_step (days_dropLast hl) j s a b c ha hb hc h.1,
      dom_step (days_dropLast hl) (fun p hp => hv p ((List.dropLast_sublist l).subset hp)) j s a b c ha hb hc h.1 h.2⟩)
  have htop := (top_iff l i p).mpr ht
  obtain ⟨q, hq, h1, h2⟩ := hI.2 i p htop (top_bound htop hk) hm hw
  rw [e]
  exact ⟨q, List.mem_reverse.mpr hq, h1, fun x hx => h2 x (List.mem_reverse.mp hx)⟩

/-- If the tops are more than WINDOW apart from each other and from the first term, then the peaks are exactly the tops above MIN_PEAK. -/
theorem C139_separate (w m : Rat) (l : List Pt) (hl : Days l) (f : Pt) (hf : l.head? = some f)
    (hs : ∀ i p, TopAt l i p → w < ((p.d - f.d : Int) : Rat) ∧ ∀ k q, TopAt l k q → k < i → w < ((p.d - q.d : Int) : Rat))
    (i : Nat) (p : Pt) : (i, p) ∈ peaksOf w m l ↔ TopAt l i p ∧ m < p.v := by
  obtain ⟨k, s, hk, hI, e⟩ := peaks_ind (w := w) (m := m)
    (fun k s => PeakInv w l.dropLast f k s ∧ Exactly m l.dropLast k s.2.2) hf
    ⟨inv_start _ _ _, fun i p => by
      simp only [List.not_mem_nil, false_iff]
      rintro ⟨h, hk, -⟩
      have := h.1
      omega⟩
    (fun j s a b c ha hb hc h => ⟨inv_step (days_dropLast hl) j s a b c ha hb hc h.1,
      exact_step (days_dropLast hl) (fun i p h => by
        obtain ⟨h1, h2⟩ := hs i p ((top_iff l i p).mp h)
        exact ⟨h1, fun k q hq => h2 k q ((top_iff l k q).mp hq)⟩) j s a b c ha hb hc h.1 h.2⟩)
  rw [e, List.mem_reverse, hI.2 i p, top_iff]
  constructor
  · rintro ⟨h1, -, h3⟩
    exact ⟨h1, h3⟩
  · rintro ⟨h1, h3⟩
    exact ⟨h1, top_bound ((top_iff l i p).mpr h1) hk, h3⟩

/-- The new series has the peaks of the terms of the period. -/
theorem C139_series (w m : Rat) (b e : Clock) (hb : b.Proper) (he : e.Proper) (s : List Term) (ho : Ordered s) :
    hydroPeaks w m b e s = if within b e s = [] then none else
      some ((peaksOf w m ((within b e s).map fun t => ⟨t.at_.days, t.val⟩)).map fun x => ⟨⟨x.2.d, 0⟩, x.2.v⟩) := by
  unfold hydroPeaks
  rw [C127_reduce b e hb he s ho]
  split
  · rfl
  · rw [Option.map_some]
    have : (within b e s).map pt = (within b e s).map fun t => ⟨t.at_.days, t.val⟩ := by
      refine List.map_congr_left fun t ht => ?_
      have hp := ho.2 t (List.mem_filter.mp ht).1
      unfold Clock.Proper at hp
      unfold pt
      rw [Int.tdiv_eq_zero_of_lt hp.1 (by omega), add_zero]
    rw [this]
    rfl

/-- The time of day of a peak is lost. -/
theorem C139_time_violated (w m : Rat) (b e : Clock) (s out : List Term) (h : hydroPeaks w m b e s = some out) :
    ∀ t ∈ out, t.at_.secs = 0 := by
  obtain ⟨r, -, rfl⟩ := Option.map_eq_some_iff.mp h
  intro t ht
  obtain ⟨p, -, rfl⟩ := List.mem_map.mp ht
  rfl

/-! ### Events -/

/-- An event that ends before the last term has the terms from the last one not after the start of the event to the last one not after its
end.  Missing: events that reach the last term (`C139_end_violated`). -/
theorem C139_event_partial (l : List Pt) (hl : Days l) (rise fall : Rat) (hr : 0 ≤ rise) (hf : 0 ≤ fall) (i : Nat) (p z : Pt)
    (hp : l[i]? = some p) (hz : l.getLast? = some z) (he : (p.d : Rat) + fall < z.d) :
    Days (getEvent l rise fall i) ∧
    ∀ x, x ∈ getEvent l rise fall i ↔ x ∈ l ∧ (x.d : Rat) ≤ p.d + fall ∧ ∀ y ∈ l, x.d < y.d → (p.d : Rat) - rise < y.d := by
  refine ⟨event_order hl _ _ _, fun x => ?_⟩
  have hi : p.d < z.d := by
    have : (p.d : Rat) < z.d := by linarith
    exact_mod_cast this
  rw [event_iff hl hp hz hr hf hi x, if_pos he]

/-- An event that reaches the last term ends with its peak. -/
theorem C139_end_violated (l : List Pt) (hl : Days l) (rise fall : Rat) (hr : 0 ≤ rise) (hf : 0 ≤ fall) (i : Nat) (p z : Pt)
    (hp : l[i]? = some p) (hz : l.getLast? = some z) (hi : p.d < z.d) (he : (z.d : Rat) ≤ p.d + fall) (x : Pt)
    (hx : x ∈ getEvent l rise fall i) : x.d ≤ p.d := by
  have := ((event_iff hl hp hz hr hf hi x).mp hx).2.1
  rw [if_neg (by linarith)] at this
  exact_mod_cast this

/-- With a term every day and a WINDOW longer than an event by a day, events do not overlap: the new series is in order of time, has only
terms of the series and is never written outside of its memory. -/
theorem C139_disjoint (w m rise fall : Rat) (n : Nat) (l : List Pt) (hl : Days l) (hd : EveryDay l) (hr : 0 ≤ rise) (hf : 0 ≤ fall)
    (hw : rise + fall + 1 ≤ w) (hn : l.length ≤ n) (hp : (peaksOf w m l).length ≤ 10000) :
    ∃ out : List Pt, eventTerms w m rise fall n l = some (out.map fun p => ⟨⟨p.d, 0⟩, p.v⟩) ∧ Days out ∧ (∀ x ∈ out, x ∈ l) ∧
      ∀ x, x ∈ out ↔ ∃ p ∈ peaksOf w m l, x ∈ getEvent l rise fall p.1 := by
  obtain ⟨htop, hord⟩ := C139_peaks w m l hl
  have hmem : ∀ x, x ∈ ((peaksOf w m l).flatMap fun p => getEvent l rise fall p.1) ↔ ∃ p ∈ peaksOf w m l, x ∈ getEvent l rise fall p.1 :=
    fun x => List.mem_flatMap
  -- the terms of an event
  have hev : ∀ p ∈ peaksOf w m l, ∀ x ∈ getEvent l rise fall p.1, x ∈ l ∧ (x.d : Rat) ≤ p.2.d + fall ∧ (p.2.d : Rat) - rise - 1 < x.d := by
    intro p hpm x hx
    obtain ⟨h0, h1, h2, -, -⟩ := htop p hpm
    cases hz : l.getLast? with
    | none =>
      rw [List.getLast?_eq_none_iff] at hz
      subst hz
      simp at h2
    | some z =>
      have hz' := hz
      rw [List.getLast?_eq_getElem?] at hz'
      have hpz := days_index hl h2 hz' (by omega)
      obtain ⟨e1, e2, e3⟩ := (event_iff hl h2 hz hr hf hpz x).mp hx
      refine ⟨e1, ?_, ?_⟩
      · split at e2 <;> linarith
      · obtain ⟨k, hk⟩ := List.getElem?_of_mem e1
        have hkl := (List.getElem?_eq_some_iff.mp hk).1
        rcases Nat.lt_or_ge (k + 1) l.length with h3 | h3
        · have hc := List.isChain_iff_getElem.mp hd k h3
          have hk' : l[k]'hkl = x := (List.getElem?_eq_some_iff.mp hk).2
          rw [hk'] at hc
          have := e3 (l[k + 1]'h3) (List.getElem_mem _) (by rw [hc]; omega)
          rw [hc] at this
          push_cast at this
          linarith
        · have : k = l.length - 1 := by omega
          subst this
          rw [hk] at hz'
          cases hz'
          have : (p.2.d : Rat) < x.d := by exact_mod_cast hpz
          linarith
  have hdays : Days ((peaksOf w m l).flatMap fun p => getEvent l rise fall p.1) := by
    unfold Days
    rw [List.pairwise_flatMap]
    refine ⟨fun p _ => event_order hl _ _ _, ?_⟩
    refine hord.imp_of_mem ?_
    intro p q hpm hqm hpq x hx y hy
    have h1 := (hev p hpm x hx).2.1
    have h2 := (hev q hqm y hy).2.2
    have h3 := hpq.2
    push_cast at h3
    have : (x.d : Rat) < y.d := by linarith
    exact_mod_cast this
  have hsub : ∀ x ∈ (peaksOf w m l).flatMap fun p => getEvent l rise fall p.1, x ∈ l := by
    intro x hx
    obtain ⟨p, hpm, hx⟩ := (hmem x).mp hx
    exact (hev p hpm x hx).1
  have hnd : ((peaksOf w m l).flatMap fun p => getEvent l rise fall p.1).Nodup :=
    hdays.imp fun {a b} h => by rintro rfl; omega
  have hlen := (List.subperm_of_subset hnd hsub).length_le
  refine ⟨_, ?_, hdays, hsub, hmem⟩
  unfold eventTerms
  simp only
  rw [if_pos ⟨hp, by rw [List.length_map]; omega⟩]
  rfl

/-! ### What goes wrong -/

/-- Terms of consecutive days. -/
def daily (v : List Rat) : List Pt := v.zipIdx.map fun x => ⟨x.2, x.1⟩

/-- The height of the last peak is kept as an integer: a lower one, here even one below MIN_PEAK, takes the place of a higher one. -/
theorem C139_truncated_violated : peaksOf 5 (46 / 10) (daily [0, 0, 0, 0, 0, 0, 49 / 10, 0, 45 / 10, 0, 0, 0]) = [(8, ⟨8, 45 / 10⟩)] := by
  decide +kernel

/-- Within WINDOW of the first term a top is a peak whatever MIN_PEAK is, and one below the first term is no peak whatever its height. -/
theorem C139_start_violated : peaksOf 5 100 (daily [0, 0, 1, 0, 0, 0]) = [(2, ⟨2, 1⟩)] ∧
    peaksOf 5 0 (daily [1000, 0, 999, 0, 0, 0]) = [] := by
  decide +kernel

/-- The last term but one is never a peak. -/
theorem C139_last_violated (w m : Rat) (l : List Pt) (hl : Days l) (x : Nat × Pt) (h : x ∈ peaksOf w m l) : x.1 ≠ l.length - 2 := by
  have := ((C139_peaks w m l hl).1 x h).2.1
  omega

/-- Events that overlap have terms twice, so that the new series is not in order of time. -/
theorem C139_overlap_violated : ∃ out, eventTerms 1 0 2 1 9 (daily [0, 0, 0, 1, 0, 1, 0, 0, 0]) = some out ∧ ¬ Ordered out := by
  refine ⟨[⟨⟨1, 0⟩, 0⟩, ⟨⟨2, 0⟩, 0⟩, ⟨⟨3, 0⟩, 1⟩, ⟨⟨4, 0⟩, 0⟩, ⟨⟨3, 0⟩, 1⟩, ⟨⟨4, 0⟩, 0⟩, ⟨⟨5, 0⟩, 1⟩, ⟨⟨6, 0⟩, 0⟩], by decide +kernel, ?_⟩
  intro h
  have := h.1
  revert this
  decide +kernel

/-- Events that overlap can have more terms than the series, which are written outside of the memory for the new series. -/
theorem C139_overflow_violated : eventTerms 1 0 10 10 10 (daily [0, 1, 0, 1, 0, 1, 0, 1, 0, 0]) = none := by
  decide +kernel

/-! ### Examples -/

/-- Two rises in twenty days. -/
def storm : List Pt := daily [1, 1, 1, 1, 5, 3, 4, 2, 1, 1, 1, 2, 9, 6, 6, 3, 2, 1, 1, 1]

example : Days storm ∧ EveryDay storm ∧ (∀ p ∈ storm, ∃ n : Int, p.v = n) ∧ storm.head? = some ⟨0, 1⟩ ∧ TopAt storm 6 ⟨6, 4⟩ ∧
    (3 : Rat) < ((6 - 0 : Int) : Rat) := by
  refine ⟨by unfold Days storm daily; decide +kernel, ?_, ?_, by decide +kernel, ?_, by norm_num⟩
  · simp [EveryDay, storm, daily, List.zipIdx]
  · have : ∀ p ∈ storm, p.v = ((p.v.num : Int) : Rat) := by decide +kernel
    exact fun p hp => ⟨_, this p hp⟩
  · exact ⟨by omega, by decide +kernel, by decide +kernel, ⟨⟨5, 3⟩, by decide +kernel, by norm_num⟩, ⟨⟨7, 2⟩, by decide +kernel, by norm_num⟩⟩

example : peaksOf 3 2 storm = [(4, ⟨4, 5⟩), (12, ⟨12, 9⟩)] := by decide +kernel

example : (getEvent storm 1 2 4).map Pt.d = [3, 4, 5, 6] ∧ (eventTerms 4 2 1 2 20 storm).isSome = true := by decide +kernel

/-- The hypotheses of `C139_event_partial` and `C139_end_violated`. -/
example : storm[4]? = some ⟨4, 5⟩ ∧ storm.getLast? = some ⟨19, 1⟩ ∧ ((4 : Int) : Rat) + 2 < (19 : Int) ∧ ((19 : Int) : Rat) ≤ (4 : Int) + 15 := by
  decide +kernel

/-- The hypothesis of `C139_separate` holds for a single top. -/
example : ∀ i p, TopAt (daily [0, 0, 0, 7, 0, 0]) i p → (1 : Rat) < ((p.d - 0 : Int) : Rat) ∧
    ∀ k q, TopAt (daily [0, 0, 0, 7, 0, 0]) k q → k < i → (1 : Rat) < ((p.d - q.d : Int) : Rat) := by
  have key : ∀ i p, TopAt (daily [0, 0, 0, 7, 0, 0]) i p → i = 3 ∧ p = ⟨3, 7⟩ := by
    rintro i p ⟨h0, h1, h2, ⟨a, ha, hv⟩, -⟩
    have hi : i = 1 ∨ i = 2 ∨ i = 3 := by
      have : (daily [0, 0, 0, 7, 0, 0]).length = 6 := rfl
      omega
    rcases hi with rfl | rfl | rfl
    · have e1 : p = ⟨1, 0⟩ := (Option.some.inj (h2.symm.trans (by decide +kernel)))
      have e2 : a = ⟨0, 0⟩ := (Option.some.inj (ha.symm.trans (by decide +kernel)))
      subst e1; subst e2
      simp at hv
    · have e1 : p = ⟨2, 0⟩ := (Option.some.inj (h2.symm.trans (by decide +kernel)))
      have e2 : a = ⟨1, 0⟩ := (Option.some.inj (ha.symm.trans (by decide +kernel)))
      subst e1; subst e2
      simp at hv
    · exact ⟨rfl, Option.some.inj (h2.symm.trans (by decide +kernel))⟩
  intro i p h
  obtain ⟨rfl, rfl⟩ := key i p h
  refine ⟨by norm_num, fun k q hq hk => ?_⟩
  obtain ⟨rfl, rfl⟩ := key k q hq
  omega

end Verif.Tsp
