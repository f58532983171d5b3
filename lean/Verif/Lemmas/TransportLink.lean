import Verif.Lemmas.TransportSeg
import Verif.Lemmas.ReservoirRun
/-
Streams of `webmod_res` and of the transport.
-/
namespace Verif.Transport
open Verif.Reservoir (sumOf addAll Basin BasinOut StreamIn Par In Rows)

theorem addAll_getD (st : List Rat) (xs : List (List Rat)) (h : ∀ x ∈ xs, x.length = st.length) (j : Nat) (hj : j < st.length) :
    (addAll st xs).getD j 0 = st.getD j 0 + sumOf (·.getD j 0) xs := by
  induction xs generalizing st with
  | nil => simp [addAll, sumOf]
  | cons x xs ih =>
    unfold addAll
    have hx := h x (by simp)
    have hl := Reservoir.zipAdd_length st x hx
    rw [ih (List.zipWith (· + ·) st x) (fun y hy => by rw [hl]; exact h y (by simp [hy])) (by rw [hl]; exact hj), sumOf_cons]
    have e : (List.zipWith (· + ·) st x).getD j 0 = st.getD j 0 + x.getD j 0 := by
      simp only [List.getD_eq_getElem?_getD]
      rw [List.getElem?_eq_getElem (by rw [hl]; exact hj), List.getElem?_eq_getElem hj, List.getElem?_eq_getElem (by rw [hx]; exact hj)]
      simp
    rw [e]; ring

/-- The streams of `webmod_res`. -/
theorem basin_streams (b : Basin) (n : Nat) (hb : b.Ok n) (units : List (Par × In × Rows)) (si : StreamIn) (init : Rat)
    (stream : List Rat) (hn : stream.length = n) (o : BasinOut) (h : Reservoir.basin b units si init stream = some o) :
    o.stream.length = n ∧ (∀ x ∈ o.hillexp, x.length = n) ∧ o.hillexp.length = units.length ∧
    (∀ j, j < n → (o.discharge :: o.stream).getD j 0 = stream.getD j 0 + sumOf (·.getD j 0) o.hillexp) ∧
    o.stream.getD (n - 1) 0 = 0 := by
  have h0 := Reservoir.basin_spec b n hb units si init stream hn o h
  unfold Reservoir.basin at h
  split at h
  · exact absurd h (by simp)
  · rename_i ex hex
    obtain ⟨h1, h2⟩ := Reservoir.exports_spec b n hb _ ex hex
    obtain ⟨h3, h4⟩ := Reservoir.addAll_spec stream ex fun x hx => by rw [hn]; exact h1 x hx
    have e := Option.some.inj h
    have hlen : (addAll stream ex).length = n := by rw [h3, hn]
    have hpos := hb.pos
    cases hst : addAll stream ex with
    | nil => rw [hst] at hlen; simp at hlen; omega
    | cons y ys =>
      have hy : ys.length + 1 = n := by rw [hst] at hlen; simpa using hlen
      refine ⟨h0.1, ?_, ?_, ?_, ?_⟩
      · rw [← e]; exact h1
      · have := h0.2.2.2.2.2.2.2.2.1
        have := congrArg List.length this
        simpa using this
      · intro j hj
        rw [← e]
        simp only [hst, List.headD_cons, List.tail_cons]
        rw [← addAll_getD stream ex (fun x hx => by rw [hn]; exact h1 x hx) j (by omega), hst]
        cases j with
        | zero => rfl
        | succ j =>
          simp only [List.getD_eq_getElem?_getD, List.getElem?_cons_succ]
          rw [List.getElem?_append_left (by omega)]
      · rw [← e]
        simp only [hst, List.tail_cons, List.getD_eq_getElem?_getD]
        rw [List.getElem?_append_right (by omega), show n - 1 - ys.length = 0 by omega]
        rfl

theorem zip_snd_sum (us : List Nat) (xs : List Rat) (h : us.length = xs.length) : sumOf (·.2) (List.zip us xs) = xs.sum := by
  unfold sumOf
  rw [List.map_snd_zip (by omega)]

/-- A segment of the transport. -/
theorem segs_at (us : List Nat) (o : BasinOut) (j : Nat) (g : Seg) (h : (segs us o)[j]? = some g) :
    j < o.stream.length ∧ g = ⟨o.stream.getD j 0, (o.discharge :: o.stream).getD j 0, o.taken.getD j 0, o.loss.getD j 0,
      List.zip us (o.hillexp.map (·.getD j 0))⟩ := by
  unfold segs at h
  rw [List.getElem?_map] at h
  cases hr : (List.range o.stream.length)[j]? with
  | none => rw [hr] at h; exact absurd h (by simp)
  | some i =>
    rw [hr] at h
    obtain ⟨hj, hi⟩ := List.getElem?_eq_some_iff.1 hr
    rw [List.length_range] at hj
    rw [List.getElem_range] at hi
    subst hi
    exact ⟨hj, (Option.some.inj h).symm⟩

theorem segs_length (us : List Nat) (o : BasinOut) : (segs us o).length = o.stream.length := by
  unfold segs; simp

theorem segs_link (b : Basin) (n : Nat) (hb : b.Ok n) (units : List (Par × In × Rows)) (si : StreamIn) (init : Rat)
    (stream : List Rat) (hn : stream.length = n) (o : BasinOut) (h : Reservoir.basin b units si init stream = some o)
    (us : List Nat) (hu : us.length = units.length) (j : Nat) (g : Seg) (hg : (segs us o)[j]? = some g) :
    g.down = stream.getD j 0 + g.fresh := by
  obtain ⟨h1, h2, h3, h4, h5⟩ := basin_streams b n hb units si init stream hn o h
  obtain ⟨hj, rfl⟩ := segs_at us o j g hg
  simp only [Seg.fresh]
  rw [h4 j (by omega)]
  congr 1
  have := zip_snd_sum us (o.hillexp.map (·.getD j 0)) (by simp [hu, h3])
  unfold sumOf at this
  rw [this]
  rfl

/-- Sums over the segments. -/
theorem overSegs_stream (t : Bool) (s : St) (V : List Rat) (a : Nat) (gs : List Seg) (hl : gs.length = V.length) :
    overSegs (fun j _ => V.getD j 0 * at_ s (.seg t (j + a))) 0 gs = inStream t a V s := by
  have key : ∀ (W : List Rat) (d : Nat) (gs : List Seg), gs.length = W.length → (∀ i, W.getD i 0 = V.getD (d + i) 0) →
      overSegs (fun j _ => V.getD j 0 * at_ s (.seg t (j + a))) d gs = inStream t (d + a) W s := by
    intro W
    induction W with
    | nil =>
      intro d gs hg _
      rw [List.length_eq_zero_iff.1 hg]; rfl
    | cons w W ih =>
      intro d gs hg hw
      cases gs with
      | nil => simp at hg
      | cons g gs =>
        unfold overSegs inStream
        have h0 := hw 0
        simp only [List.getD_cons_zero, Nat.add_zero] at h0
        rw [← h0, ih (d + 1) gs (by simpa using hg), show d + 1 + a = d + a + 1 by omega]
        intro i
        have := hw (i + 1)
        simp only [List.getD_cons_succ] at this
        rw [this]
        congr 1
        omega
  have := key V 0 gs hl (fun i => by simp)
  rwa [Nat.zero_add] at this

theorem inStream_zero (t : Bool) (c : Nat) (V : List Rat) (s : St) : inStream t c (V ++ [0]) s = inStream t c V s := by
  induction V generalizing c with
  | nil => simp [inStream]
  | cons v V ih => simp only [List.cons_append, inStream, ih]

theorem snoc (l : List Rat) (n : Nat) (hl : l.length = n + 1) (h0 : l.getD n 0 = 0) : l = l.take n ++ [0] := by
  conv_lhs => rw [← List.take_append_drop n l]
  congr 1
  have hd : (l.drop n).length = 1 := by rw [List.length_drop]; omega
  obtain ⟨x, hx⟩ := List.length_eq_one_iff.1 hd
  rw [hx]
  have : l.getD n 0 = x := by
    rw [List.getD_eq_getElem?_getD]
    have : (l.drop n)[0]? = some x := by rw [hx]; rfl
    rw [List.getElem?_drop, Nat.add_zero] at this
    rw [this]; rfl
  rw [← this, h0]

/-- The solute in the streams, without reactions. -/
theorem stream_mol {rx : Ent → Sol → Sol} (hi : Inert rx) (b : Basin) (n : Nat) (hb : b.Ok n) (units : List (Par × In × Rows))
    (si : StreamIn) (init : Rat) (stream : List Rat) (hn : stream.length = n) (o : BasinOut)
    (h : Reservoir.basin b units si init stream = some o) (us : List Nat) (hu : us.length = units.length) (s s' : St)
    (hr : Routed rx (segs us o) s s') :
    o.discharge * at_ s' (.seg true 0) + inStream true 1 o.stream s' =
      inStream false 1 stream s + overSegs (fun _ g => g.freshMol s) 0 (segs us o) +
        overSegs (fun j g => (g.taken + g.loss) * (at_ s (.seg false (j + 1)) - at_ s' (.seg true j))) 0 (segs us o) := by
  obtain ⟨h1, h2, h3, h4, h5⟩ := basin_streams b n hb units si init stream hn o h
  have hpos := hb.pos
  have hlen : (segs us o).length = n := by rw [segs_length, h1]
  have hsn := snoc (o.discharge :: o.stream) n (by simp [h1]) (by
    obtain ⟨m, rfl⟩ : ∃ m, n = m + 1 := ⟨n - 1, by omega⟩
    simpa using h5)
  have e1 : o.discharge * at_ s' (.seg true 0) + inStream true 1 o.stream s' = inStream true 0 (o.discharge :: o.stream) s' := rfl
  rw [e1, hsn, inStream_zero, ← overSegs_stream true s' _ 0 (segs us o) (by rw [hlen, List.length_take]; simp [h1]),
    ← overSegs_stream false s stream 1 (segs us o) (by rw [hlen, hn]), ← overSegs_add, ← overSegs_add]
  apply overSegs_at
  intro j g hg
  rw [Nat.zero_add, Nat.add_zero]
  obtain ⟨hj, hgj⟩ := segs_at us o j g hg
  have hd : g.down = ((o.discharge :: o.stream).take n).getD j 0 := by
    rw [List.getD_eq_getElem?_getD, List.getElem?_take_of_lt (by omega), ← List.getD_eq_getElem?_getD, hgj]
  have hl := segs_link b n hb units si init stream hn o h us hu j g hg
  have hm := (hr j g hg).mass hi
  rw [← hd]
  unfold Seg.whole at hm
  have : stream.getD j 0 = g.down - g.fresh := by linarith
  rw [this]
  linarith

end Verif.Transport
