import Verif.Lemmas.TransportLink
/-
A step of the transport.
-/
namespace Verif.Transport
open Verif.Reservoir (sumOf Par In Rows Extra BinOut Vol)

/-- A solution that stays the same during the units of a step. -/
def Key.fixed : Key → Prop
  | .data _ => True
  | .seg _ _ => True
  | .pure => True
  | _ => False

theorem at_congr {s t : St} {k : Key} (h : t.sol k = s.sol k) : at_ t k = at_ s k := by unfold at_; rw [h]

theorem held_congr (f : Flow) (vol : Vol → Rat) (b : Bool) (s t : St) (h : ∀ k : Key, k.of f.unit → t.sol k = s.sol k) :
    held f vol b t = held f vol b s := by
  unfold held
  have e : ∀ k, at_ t (f.key b k) = at_ s (f.key b k) := fun k => at_congr (h _ rfl)
  have e2 : ∀ j, at_ t (.bin b f.unit j) = at_ s (.bin b f.unit j) := fun j => at_congr (h _ rfl)
  simp only [e, e2]

theorem kept_congr (f : Flow) (s s' t t' : St) (h : Kept f s s') (h1 : ∀ k : Key, k.of f.unit ∨ k.fixed → t.sol k = s.sol k)
    (h2 : ∀ k : Key, k.of f.unit → t'.sol k = s'.sol k) : Kept f t t' := by
  unfold Kept fallenMol at *
  rw [held_congr f _ true s' t' h2, held_congr f _ false s t fun k hk => h1 k (Or.inl hk), at_congr (h2 (f.key true 10) rfl),
    at_congr (h1 (f.key false 8) (Or.inl rfl)), at_congr (h2 (f.key true 8) rfl), at_congr (h1 (.data 1) (Or.inr trivial)),
    at_congr (h1 (.data (f.srcExt + 1)) (Or.inr trivial)), at_congr (h1 (.seg false f.srcInt) (Or.inr trivial)),
    at_congr (h1 (.data (f.srcGw1 + 1)) (Or.inr trivial)), at_congr (h1 (.data (f.srcGw2 + 1)) (Or.inr trivial))]
  exact h

theorem changed_of {u : Nat} {k : Key} (h : k.changed u) : k.of u := by
  rcases h with hc | ⟨t, i, rfl⟩
  · simp only [List.mem_cons, List.not_mem_nil, or_false] at hc
    rcases hc with rfl | rfl | rfl | rfl | rfl | rfl | rfl | rfl | rfl | rfl | rfl | rfl | rfl | rfl | rfl | rfl | rfl | rfl <;> rfl
  · rfl

theorem of_inj {u u' : Nat} {k : Key} (h : k.of u) (h' : k.of u') : u = u' := by
  cases k with
  | hill t i v => exact h.symm.trans h'
  | bin t v j => exact h.symm.trans h'
  | pure => exact h.elim
  | data i => exact h.elim
  | seg t i => exact h.elim

theorem fixed_of {u : Nat} {k : Key} (h : k.fixed) : ¬ k.of u := by
  cases k <;> first | exact h.elim | exact fun h => h

/-- The units of a step. -/
theorem units_kept {rx : Ent → Sol → Sol} (hi : Inert rx) (fs : List Flow) (hn : (fs.map (·.unit)).Nodup)
    (ho : ∀ f ∈ fs, f.Ok ∧ f.Regular) (s : St) (hF : Full s.sol)
    (h9 : ∀ f ∈ fs, 0 < f.prefMax ∨ f.r.satpref.init = 0 ∨ at_ s (f.key true 9) = at_ s (f.key false 9)) :
    Full (fs.foldl (fun s f => flow rx f s) s).sol ∧
    (∀ k : Key, (∀ f ∈ fs, ¬ k.of f.unit) → (fs.foldl (fun s f => flow rx f s) s).sol k = s.sol k) ∧
    ∀ f ∈ fs, Kept f s (fs.foldl (fun s f => flow rx f s) s) := by
  induction fs generalizing s with
  | nil => exact ⟨hF, fun _ _ => rfl, fun f hf => absurd hf (by simp)⟩
  | cons f fs ih =>
    obtain ⟨o1, o2⟩ := ho f List.mem_cons_self
    obtain ⟨m1, m2, m3⟩ := flow_moved hi.1 o1 o2 s hF
    have hk : Kept f s (flow rx f s) := moved_held hi o1 s _ m3 (h9 f List.mem_cons_self) o2.pref
    rw [List.map_cons, List.nodup_cons] at hn
    have hne : ∀ f' ∈ fs, f'.unit ≠ f.unit := fun f' hf' he => hn.1 (he ▸ List.mem_map_of_mem hf')
    have same : ∀ k : Key, ¬ k.of f.unit → (flow rx f s).sol k = s.sol k := fun k hk => m2 k fun h => hk (changed_of h)
    obtain ⟨i1, i2, i3⟩ := ih hn.2 (fun g hg => ho g (List.mem_cons_of_mem _ hg)) (flow rx f s) m1 (by
      intro g hg
      have hh : ∀ b k, ¬ (g.key b k).of f.unit := fun b k h => hne g hg h
      rw [at_congr (same _ (hh true 9)), at_congr (same _ (hh false 9))]
      exact h9 g (List.mem_cons_of_mem _ hg))
    rw [List.foldl_cons]
    refine ⟨i1, ?_, ?_⟩
    · intro k hk
      rw [i2 k fun g hg => hk g (List.mem_cons_of_mem _ hg), same k (hk f List.mem_cons_self)]
    · intro g hg
      rcases List.mem_cons.1 hg with rfl | hg
      · refine kept_congr g s _ s _ hk (fun _ _ => rfl) fun k hk => i2 k fun g' hg' h => hne g' hg' (of_inj h hk)
      · refine kept_congr g _ _ s _ (i3 g hg) (fun k hk => ?_) fun _ _ => rfl
        symm
        apply same
        rcases hk with hk | hk
        · exact fun h => hne g hg (of_inj hk h)
        · exact fixed_of hk

/-! ### The start of a step -/

theorem begin_full (first : Bool) (fs : List Flow) (n : Nat) (s : St) (h : Full s.sol) : Full (begin first fs n s).sol := by
  unfold begin
  cases first
  · simp only [Bool.false_eq_true, ↓reduceIte]
    constructor
    · intro k
      cases k with
      | hill t i u => cases t <;> simp only [restart] <;> (try split) <;> exact h.water _
      | bin t u j => cases t <;> simp only [restart] <;> (try split) <;> exact h.water _
      | seg t j => cases t <;> simp only [restart] <;> (try split) <;> exact h.water _
      | pure => exact h.water _
      | data i => exact h.water _
    · exact h.pure
  · exact h

theorem begin_hill (first : Bool) (fs : List Flow) (n : Nat) (s : St) (f : Flow) (hf : f ∈ fs) (k : Nat) (h1 : 1 ≤ k) (h2 : k ≤ 9) :
    at_ (begin first fs n s) (f.key false k) = at_ s (.hill (!first) k f.unit) := by
  unfold at_ begin Flow.key
  cases first
  · simp only [Bool.false_eq_true, ↓reduceIte, restart, Bool.not_false]
    rw [if_pos ⟨h1, h2, List.mem_map_of_mem hf⟩]
  · rfl

theorem begin_true (first : Bool) (fs : List Flow) (n : Nat) (s : St) (k u : Nat) :
    at_ (begin first fs n s) (.hill true k u) = at_ s (.hill true k u) := by
  unfold at_ begin
  cases first <;> rfl

theorem begin_bin (first : Bool) (fs : List Flow) (n : Nat) (s : St) (f : Flow) (hf : f ∈ fs) (j : Nat) (h1 : 1 ≤ j) (h2 : j ≤ f.bins.length) :
    at_ (begin first fs n s) (.bin false f.unit j) = at_ s (.bin (!first) f.unit j) := by
  unfold at_ begin
  cases first
  · simp only [Bool.false_eq_true, ↓reduceIte, restart, Bool.not_false]
    rw [if_pos]
    simp only [List.any_eq_true, decide_eq_true_eq]
    exact ⟨f, hf, rfl, h1, h2⟩
  · rfl

theorem begin_seg (first : Bool) (fs : List Flow) (n : Nat) (s : St) (j : Nat) (h1 : 1 ≤ j) (h2 : j ≤ n) :
    at_ (begin first fs n s) (.seg false j) = at_ s (.seg (!first) j) := by
  unfold at_ begin
  cases first
  · simp only [Bool.false_eq_true, ↓reduceIte, restart, Bool.not_false]
    rw [if_pos ⟨h1, h2⟩]
  · rfl

/-! ### Sums -/

theorem overOuts_bins (t : Bool) (u : Nat) (vol : Vol → Rat) (s : St) (bs : List BinOut) (j : Nat) :
    overOuts (fun j b => vol b.vol * at_ s (.bin t u j)) j bs = inBins t u j (bs.map fun b => vol b.vol) s := by
  induction bs generalizing j with
  | nil => rfl
  | cons b bs ih => simp only [overOuts, List.map_cons, inBins, ih]

theorem inBins_congr (t t' : Bool) (u : Nat) (V : List Rat) (s s' : St) (j : Nat)
    (h : ∀ i, j ≤ i → i < j + V.length → at_ s (.bin t u i) = at_ s' (.bin t' u i)) : inBins t u j V s = inBins t' u j V s' := by
  induction V generalizing j with
  | nil => rfl
  | cons v V ih =>
    simp only [inBins]
    rw [h j (le_refl j) (by simp), ih (j + 1)]
    intro i h1 h2
    exact h i (by omega) (by rw [List.length_cons]; omega)

theorem inStream_congr (t t' : Bool) (V : List Rat) (s s' : St) (j : Nat)
    (h : ∀ i, j ≤ i → i < j + V.length → at_ s (.seg t i) = at_ s' (.seg t' i)) : inStream t j V s = inStream t' j V s' := by
  induction V generalizing j with
  | nil => rfl
  | cons v V ih =>
    simp only [inStream]
    rw [h j (le_refl j) (by simp), ih (j + 1)]
    intro i h1 h2
    exact h i (by omega) (by rw [List.length_cons]; omega)

theorem held_fin (f : Flow) (hu : f.r.uz = f.bins.map (·.vol)) (s : St) : held f (·.fin) true s = inUnit true f.unit f.r.next s := by
  unfold held inUnit
  rw [overOuts_bins]
  simp only [Rows.next, hu, List.map_map, Flow.key]
  rfl

/-- Initial volumes of a unit. -/
theorem step_init (p : Par) (v : Reservoir.Start) (i : In) (r : Rows) (e : Extra) (h : Reservoir.step p v i = some (r, e))
    (hb : i.bins.length = p.ac.length) (hv : v.uz.length = p.ac.length) :
    r.can.init = v.can ∧ r.snow.init = v.snow ∧ r.ohoriz.init = v.ohoriz ∧ e.bins.map (·.vol.init) = v.uz ∧ r.qdf.init = v.qdf ∧
      r.sat.init = v.sat ∧ r.satpref.init = v.satpref := by
  have hr := fun q w hw => (Reservoir.step_rows p v i r e h q w hw).2.1
  have h1 := hr .can r.can rfl
  have h2 := hr .snow r.snow rfl
  have h3 := hr .ohoriz r.ohoriz rfl
  have h4 := hr .qdf r.qdf rfl
  have h5 := hr .sat r.sat rfl
  have h6 := hr .satpref r.satpref rfl
  simp only [Reservoir.Start.vol, Option.some.injEq] at h1 h2 h3 h4 h5 h6
  refine ⟨h1.symm, h2.symm, h3.symm, ?_, h4.symm, h5.symm, h6.symm⟩
  obtain ⟨oh, b, -, -, e1, -, -, -, -, -, -, r5, -⟩ := Reservoir.step_eq p v i r e h
  apply List.ext_getElem?
  intro j
  have hlen : e.bins.length = v.uz.length := by
    rw [e1]
    unfold Reservoir.bins
    simp [Topmod.acfs_length, hb, hv]
  rw [List.getElem?_map]
  cases hj : e.bins[j]? with
  | none =>
    rw [List.getElem?_eq_none_iff, hlen, ← List.getElem?_eq_none_iff] at hj
    rw [hj]; rfl
  | some o =>
    have := hr (.uz j) o.vol (by simp [Reservoir.Rows.row, r5, hj])
    exact this.symm

theorem flows_at (ps : List Par) (is : List In) (rs : List (Rows × Extra)) (xs : List (Site × Rat)) (u : Nat) (k : Nat) (f : Flow)
    (h : (flows u ps is rs xs)[k]? = some f) :
    f.unit = u + k ∧ ps[k]? = some f.p ∧ is[k]? = some f.i ∧ ∃ e, rs[k]? = some (f.r, e) ∧ f.bins = e.bins := by
  induction ps generalizing u is rs xs k with
  | nil => simp [flows] at h
  | cons p ps ih =>
    cases is with
    | nil => simp [flows] at h
    | cons i is =>
      cases rs with
      | nil => simp [flows] at h
      | cons r rs =>
        cases xs with
        | nil => simp [flows] at h
        | cons x xs =>
          obtain ⟨r, e⟩ := r
          obtain ⟨x, q⟩ := x
          simp only [flows] at h
          cases k with
          | zero =>
            simp only [List.getElem?_cons_zero, Option.some.injEq] at h
            subst h
            exact ⟨rfl, rfl, rfl, e, rfl, rfl⟩
          | succ k =>
            rw [List.getElem?_cons_succ] at h
            obtain ⟨h1, h2, h3, h4⟩ := ih is rs xs (u + 1) k h
            exact ⟨by omega, h2, h3, h4⟩

theorem flows_length (ps : List Par) (is : List In) (rs : List (Rows × Extra)) (xs : List (Site × Rat)) (u n : Nat)
    (h1 : ps.length = n) (h2 : is.length = n) (h3 : rs.length = n) (h4 : xs.length = n) : (flows u ps is rs xs).length = n := by
  induction n generalizing u ps is rs xs with
  | zero => rw [List.length_eq_zero_iff.1 h1]; rfl
  | succ n ih =>
    obtain ⟨p, ps, rfl⟩ := List.exists_cons_of_length_eq_add_one h1
    obtain ⟨i, is, rfl⟩ := List.exists_cons_of_length_eq_add_one h2
    obtain ⟨r, rs, rfl⟩ := List.exists_cons_of_length_eq_add_one h3
    obtain ⟨x, xs, rfl⟩ := List.exists_cons_of_length_eq_add_one h4
    simp only [List.length_cons, Nat.add_right_cancel_iff] at h1 h2 h3 h4
    simp only [flows, List.length_cons, ih ps is rs xs (u + 1) h1 h2 h3 h4]

theorem units_nodup (fs : List Flow) (u : Nat) (h : ∀ k f, fs[k]? = some f → f.unit = u + k) : (fs.map (·.unit)).Nodup := by
  rw [List.nodup_iff_getElem?_ne_getElem?]
  intro i j hij hj
  rw [List.length_map] at hj
  rw [List.getElem?_map, List.getElem?_map, List.getElem?_eq_getElem (by omega : i < fs.length), List.getElem?_eq_getElem hj]
  intro e
  simp only [Option.map_some, Option.some.injEq] at e
  rw [h i _ (List.getElem?_eq_getElem (by omega)), h j _ (List.getElem?_eq_getElem hj)] at e
  omega

theorem inUnits_sum (t : Bool) (s : St) (X : Flow → Rat) (fs : List Flow) (V : List Reservoir.Start) (u : Nat) (hl : V.length = fs.length)
    (h : ∀ k f w, fs[k]? = some f → V[k]? = some w → inUnit t (u + k) w s = X f) : inUnits t u V s = (fs.map X).sum := by
  induction fs generalizing V u with
  | nil => rw [List.length_eq_zero_iff.1 hl]; rfl
  | cons f fs ih =>
    cases V with
    | nil => exact absurd hl (by simp)
    | cons w V =>
      simp only [inUnits, List.map_cons, List.sum_cons]
      have h0 := h 0 f w rfl rfl
      rw [Nat.add_zero] at h0
      rw [h0, ih V (u + 1) (by simpa using hl)]
      intro k g w' hk hw
      have := h (k + 1) g w' (by simpa using hk) (by simpa using hw)
      rw [show u + (k + 1) = u + 1 + k by omega] at this
      exact this

theorem overSegs_map (F : Seg → Rat) (gs : List Seg) (j : Nat) : overSegs (fun _ g => F g) j gs = (gs.map F).sum := by
  induction gs generalizing j with
  | nil => rfl
  | cons g gs ih => simp only [overSegs, List.map_cons, List.sum_cons, ih]

theorem overSegs_congr {F G : Nat → Seg → Rat} (gs : List Seg) (j : Nat)
    (h : ∀ i g, gs[i]? = some g → F (j + i) g = G (j + i) g) : overSegs F j gs = overSegs G j gs := by
  induction gs generalizing j with
  | nil => rfl
  | cons g gs ih =>
    simp only [overSegs]
    rw [show F j g = G j g from h 0 g rfl, ih (j + 1)]
    intro i g' hg
    have := h (i + 1) g' (by simpa using hg)
    rw [show j + (i + 1) = j + 1 + i by omega] at this
    exact this

theorem sum_map_add {α : Type} (l : List α) (f g : α → Rat) : (l.map fun x => f x + g x).sum = (l.map f).sum + (l.map g).sum := by
  induction l with
  | nil => simp
  | cons a l ih => simp only [List.map_cons, List.sum_cons, ih]; ring

theorem sum_map_sub {α : Type} (l : List α) (f g : α → Rat) : (l.map fun x => f x - g x).sum = (l.map f).sum - (l.map g).sum := by
  induction l with
  | nil => simp
  | cons a l ih => simp only [List.map_cons, List.sum_cons, ih]; ring

theorem sum_map_mul {α : Type} (l : List α) (f : α → Rat) (c : Rat) : (l.map fun x => f x * c).sum = (l.map f).sum * c := by
  induction l with
  | nil => simp
  | cons a l ih => simp only [List.map_cons, List.sum_cons, ih]; ring

theorem range_getD (x : List Rat) : (List.range x.length).map (fun j => x.getD j 0) = x := by
  apply List.ext_getElem?
  intro i
  rw [List.getElem?_map]
  by_cases hi : i < x.length
  · rw [List.getElem?_range hi]
    simp [hi]
  · rw [List.getElem?_eq_none (by simpa using hi), List.getElem?_eq_none (by omega)]; rfl

theorem swap_sum (n : Nat) (c : Nat → Rat) (us : List Nat) (ex : List (List Rat)) (h : ∀ x ∈ ex, x.length = n) :
    ((List.range n).map fun j => ((List.zip us (ex.map (·.getD j 0))).map fun u => u.2 * c u.1).sum).sum =
      ((List.zip us (ex.map (·.sum))).map fun u => u.2 * c u.1).sum := by
  induction us generalizing ex with
  | nil => simp
  | cons u us ih =>
    cases ex with
    | nil => simp
    | cons x ex =>
      simp only [List.map_cons, List.zip_cons_cons, List.sum_cons]
      rw [sum_map_add, ih ex fun y hy => h y (List.mem_cons_of_mem _ hy), sum_map_mul]
      rw [← h x List.mem_cons_self, range_getD]

theorem fresh_sum (us : List Nat) (o : Reservoir.BasinOut) (h : ∀ x ∈ o.hillexp, x.length = o.stream.length) (s : St) :
    overSegs (fun _ g => g.freshMol s) 0 (segs us o) =
      ((List.zip us (o.hillexp.map (·.sum))).map fun u => u.2 * at_ s (.hill true 10 u.1)).sum := by
  rw [overSegs_map, ← swap_sum o.stream.length (fun u => at_ s (.hill true 10 u)) us o.hillexp h]
  unfold segs
  rw [List.map_map]
  rfl

theorem zip_out (fs : List Flow) (c : Nat → Rat) :
    ((List.zip (fs.map (·.unit)) (fs.map (·.r.hill.out))).map fun u => u.2 * c u.1).sum = (fs.map fun f => f.r.hill.out * c f.unit).sum := by
  induction fs with
  | nil => rfl
  | cons f fs ih => simp only [List.map_cons, List.zip_cons_cons, List.sum_cons, ih]

end Verif.Transport
