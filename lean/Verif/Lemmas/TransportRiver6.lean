import Verif.Lemmas.TransportMru6
import Verif.Lemmas.TransportRiver5
import Verif.Spec.TransportRiver
/-
What the composite of the basin shows of a step.
-/
namespace Verif.Transport
open Verif.Reservoir (Vol Rows BinOut Par In sumOf Extra)
open Verif.Chem (Ctx Call Event Table Same)
open Verif.SolnNum (Dims)

theorem units_frame {rx : Ent → Sol → Sol} (hd : Dry rx) (fs : List Flow) (ho : ∀ f ∈ fs, f.Ok ∧ f.Regular) (s : St) (hF : Full s.sol)
    (k : Key) (hk : ∀ g ∈ fs, ¬ k.of g.unit) : (fs.foldl (fun s f => flow rx f s) s).sol k = s.sol k := by
  induction fs generalizing s with
  | nil => rfl
  | cons g fs ih =>
    obtain ⟨o1, o2⟩ := ho g List.mem_cons_self
    obtain ⟨n1, n2, -⟩ := flow_moved hd o1 o2 s hF
    rw [List.foldl_cons, ih (fun g hg => ho g (List.mem_cons_of_mem _ hg)) _ n1 fun g' hg' => hk g' (List.mem_cons_of_mem _ hg')]
    exact n2 k fun h => hk g List.mem_cons_self (changed_of h)

/-- What all units record for the basin and not for themselves. -/
theorem units_seep {rx : Ent → Sol → Sol} (hd : Dry rx) (fs : List Flow) (hn : (fs.map (·.unit)).Nodup)
    (ho : ∀ f ∈ fs, f.Ok ∧ f.Regular) (s : St) (hF : Full s.sol) :
    ∃ m, (fs.foldl (fun s f => flow rx f s) s).log = s.log ++ m ∧ recRise m = 0 ∧
      recSeep m = diverted fs s - drained fs (fs.foldl (fun s f => flow rx f s) s) := by
  induction fs generalizing s with
  | nil => exact ⟨[], by simp, by simp [recRise], by simp [recSeep, diverted, drained]⟩
  | cons f fs ih =>
    obtain ⟨o1, o2⟩ := ho f List.mem_cons_self
    have ho' : ∀ g ∈ fs, g.Ok ∧ g.Regular := fun g hg => ho g (List.mem_cons_of_mem _ hg)
    obtain ⟨m1, m2, -⟩ := flow_moved hd o1 o2 s hF
    obtain ⟨l, L1, L2, L3⟩ := flow_seep hd o1 o2 s hF
    rw [List.map_cons, List.nodup_cons] at hn
    have hne : ∀ f' ∈ fs, f'.unit ≠ f.unit := fun f' hf' he => hn.1 (he ▸ List.mem_map_of_mem hf')
    obtain ⟨m, M1, M2, M3⟩ := ih hn.2 ho' (flow rx f s) m1
    have fr := units_frame hd fs ho' (flow rx f s) m1 (f.key true 10) fun g hg h => hne g hg (of_inj h rfl)
    have e1 : diverted fs (flow rx f s) = diverted fs s := by
      unfold diverted
      congr 1
      apply List.map_congr_left
      intro g _
      rw [at_congr (m2 (.seg false g.srcInt) fun h => changed_of h)]
    rw [List.foldl_cons]
    refine ⟨l ++ m, by rw [M1, L1, List.append_assoc], ?_, ?_⟩
    · simp only [recRise, List.map_append, List.sum_append] at *
      rw [L2, M2]; ring
    · simp only [recSeep, List.map_append, List.sum_append] at *
      rw [L3, M3, e1]
      unfold diverted drained
      simp only [List.map_cons, List.sum_cons]
      rw [at_congr fr]
      ring

/-- Units record nothing for the reactions of segments. -/
theorem proper_seg {f : Flow} {e : Ev} (he : e.proper f) : e.segRxn = 0 ∧ e.segFin = 0 := by
  cases e with
  | call row metric vol conc tal mru basin react =>
    cases react with
    | false => cases row <;> simp [Ev.segRxn, Ev.segFin]
    | true =>
      obtain ⟨-, h⟩ := he
      rw [if_pos rfl] at h
      have := h.2.2.2
      cases row with
      | seg _ _ => exact absurd this (by simp [Key.holds])
      | _ => simp [Ev.segRxn, Ev.segFin]
  | _ => simp [Ev.segRxn, Ev.segFin]

theorem sum_zero_of (l : List Ev) (g : Ev → Rat) (h : ∀ e ∈ l, g e = 0) : (l.map g).sum = 0 := by
  rw [List.map_congr_left (g := fun _ => 0) h]; simp

theorem overSegs_mouth (F : Seg → Rat) (gs : List Seg) (g : Seg) (hg : gs[0]? = some g) :
    overSegs (fun j g => if j = 0 then F g else 0) 0 gs = F g := by
  cases gs with
  | nil => exact absurd hg (by simp)
  | cons g' gs =>
    cases hg
    have : ∀ a, overSegs (fun j g => if j = 0 then F g else 0) (a + 1) gs = 0 := by
      clear * -
      induction gs with
      | nil => intro a; rfl
      | cons g gs ih => intro a; unfold overSegs; rw [if_neg (by omega), ih]; ring
    unfold overSegs
    rw [this, if_pos rfl, add_zero]

/-- What moves down the streams, and out of them, is what is in them then. -/
theorem moved_stream {b : Reservoir.Basin} {N : Nat} (hb : b.Ok N) {units : List (Par × In × Rows)} {si : Reservoir.StreamIn} {init : Rat}
    {stream : List Rat} (hn : stream.length = N) {o : Reservoir.BasinOut} (h : Reservoir.basin b units si init stream = some o)
    (us : List Nat) (s' : St) :
    overSegs (fun j g => g.down * at_ s' (.seg true j)) 0 (segs us o) = o.discharge * at_ s' (.seg true 0) + inStream true 1 o.stream s' ∧
    overSegs (fun j g => if j = 0 then g.down * at_ s' (.seg true j) else 0) 0 (segs us o) = o.discharge * at_ s' (.seg true 0) := by
  obtain ⟨h1, h2, h3, h4, h5⟩ := basin_streams b N hb units si init stream hn o h
  have hpos := hb.pos
  have hlen : (segs us o).length = N := by rw [segs_length, h1]
  have hsn := snoc (o.discharge :: o.stream) N (by simp [h1]) (by
    obtain ⟨m, rfl⟩ : ∃ m, N = m + 1 := ⟨N - 1, by omega⟩
    simpa using h5)
  constructor
  · have e1 : o.discharge * at_ s' (.seg true 0) + inStream true 1 o.stream s' = inStream true 0 (o.discharge :: o.stream) s' := rfl
    rw [e1, hsn, inStream_zero, ← overSegs_stream true s' _ 0 (segs us o) (by rw [hlen, List.length_take]; simp [h1])]
    apply overSegs_at
    intro j g hg
    obtain ⟨hj, hgj⟩ := segs_at us o j g hg
    have hd : g.down = ((o.discharge :: o.stream).take N).getD j 0 := by
      rw [List.getD_eq_getElem?_getD, List.getElem?_take_of_lt (by omega), ← List.getD_eq_getElem?_getD, hgj]
    rw [Nat.zero_add, Nat.add_zero, hd]
  · obtain ⟨g, hg⟩ : ∃ g, (segs us o)[0]? = some g := ⟨_, List.getElem?_eq_getElem (by omega)⟩
    obtain ⟨-, hg0⟩ := segs_at us o 0 g hg
    refine (overSegs_congr _ 0 ?_).trans ((overSegs_mouth (fun g => g.down * at_ s' (.seg true 0)) _ g hg).trans ?_)
    · intro i g _
      by_cases hi : 0 + i = 0
      · rw [if_pos hi, if_pos hi, hi]
      · rw [if_neg hi, if_neg hi]
    · rw [hg0]; rfl

theorem couple_river {rx : Ent → Sol → Sol} (hd : Dry rx) {first : Bool} {b : Reservoir.Basin} {ps : List (Par × Site)}
    {v : Reservoir.St} {s : St} {x : List In × Reservoir.StreamIn × List Rat} {v' : Reservoir.St} {s' : St} {o : Reservoir.Out}
    {fs : List Flow} {N : Nat} (hb : b.Ok N) (hv : Sized ps N v) (hx : Fits ps x) (hF : Full s.sol)
    (h : couple rx first b ps v s x = some (v', s', o, fs)) (hs : Smooth (v', s', o, fs)) {d : Dims} (hin : Inside d ps N) {n : Nat}
    {z : Nat → Ctx × Call} (hz : ∀ i, Known n (z i).1) {u t : Table} (hu : BlankUnits n u) (hu' : BlankBasin n u)
    (ht : Chem.run (heard d n z 0 s'.log) u = some t) :
    ∃ c, BasinShown rx n fs o (begin first fs N s) s' c u t := by
  obtain ⟨c1, c2, c3, c4⟩ := couple_units hv hx h
  have hfin := couple_inside hv hx h hin
  obtain ⟨h1, h2, h3⟩ := couple_eq h
  obtain ⟨w1, w2, w3, -, w5⟩ := Reservoir.webrrun_eq _ _ _ _ _ _ _ h1
  obtain ⟨g1, g2, g3, -, -⟩ := basin_streams b N hb _ _ _ _ hv.stream _ w2
  have hsl : (segs (fs.map (·.unit)) o.basin).length = N := by rw [segs_length, g1]
  rw [hsl] at h3
  have hun : ∀ k f, fs[k]? = some f → f.unit = 1 + k := fun k f hk => (c4 k f hk).1
  have hnd := units_nodup fs 1 hun
  obtain ⟨m1, -⟩ := units_recorded hd fs hfin hnd hs.1 (begin first fs N s) (begin_full first fs N s hF)
  obtain ⟨M, L1, L2⟩ := units_log (rx := rx) fs hfin (begin first fs N s)
  obtain ⟨M', E1, E2, E3⟩ := units_seep hd fs hnd hs.1 (begin first fs N s) (begin_full first fs N s hF)
  have hM : M' = M := List.append_cancel_left (E1.symm.trans L1)
  subst hM
  have hseg : ∀ j, at_ (fs.foldl (fun s f => flow rx f s) (begin first fs N s)) (.seg false j) = at_ (begin first fs N s) (.seg false j) :=
    fun j => at_congr (units_frame hd fs hs.1 _ (begin_full first fs N s hF) _ fun f _ hk => hk)
  generalize hs1 : fs.foldl (fun s f => flow rx f s) (begin first fs N s) = s1 at *
  obtain ⟨l1, l2, l3⟩ := segLoop_routed hd _ hs.2 s1 m1
  obtain ⟨S, K1, K2⟩ := segLoop_log rx (segs (fs.map (·.unit)) o.basin) 1 le_rfl s1
  obtain ⟨S', c, R1, R2, R3, R4, R5, R6⟩ := segLoop_river hd (segs (fs.map (·.unit)) o.basin) hs.2 0 s1 m1
  rw [Nat.zero_add] at R1 R3 R4 R5
  have hSS : S' = S := List.append_cancel_left (R1.symm.trans K1)
  subst hSS
  simp only [Nat.zero_add] at R6
  rw [← h3] at l1 l2 l3 K1 R3 R4 R5 R6
  rw [hsl, Nat.add_sub_cancel_left] at K2
  have hmo : ∀ k, mo s' k = at_ s' k := fun k => (at_full l1 k).symm
  have hmo1 : ∀ k, mo s1 k = at_ s1 k := fun k => (at_full m1 k).symm
  simp only [hmo, hmo1] at R3 R4 R5 R6
  have same : ∀ u, at_ s' (.hill true 10 u) = at_ s1 (.hill true 10 u) :=
    fun u => at_congr (l2 _ (by simp [Key.stream]))
  have hlog : s'.log = M' ++ S' := by rw [K1, L1]; rfl
  have hsound : ∀ e ∈ M' ++ S', e.sound d := by
    intro e he
    rcases List.mem_append.1 he with he | he
    · obtain ⟨⟨f, hf, hp⟩, -⟩ := L2 e he
      exact proper_sound (hfin f hf) hp
    · exact streamy_sound hin.segs (K2 e he)
  have hbound : ∀ e ∈ M' ++ S', e.bound := by
    intro e he
    rcases List.mem_append.1 he with he | he
    · exact (L2 e he).2
    · exact (streamy_hushed (K2 e he) 0).2
  have hhome : ∀ e ∈ M' ++ S', e.home (fs.map (·.unit)) := by
    intro e he
    rcases List.mem_append.1 he with he | he
    · obtain ⟨⟨f, hf, hp⟩, -⟩ := L2 e he
      exact proper_home hp (List.mem_map_of_mem hf)
    · exact streamy_home (K2 e he) _
  rw [hlog] at ht
  obtain ⟨t1, t2, t3, t4, t5⟩ := heard_apart hin.ok hz hnd (M' ++ S') hsound hbound hhome 0 u t ht
  have ap : ∀ w i, apart (fs.map (·.unit)) n w i = w .basin (.mol n i) - byUnits n fs w i := by
    intro w i
    unfold apart byUnits
    rw [List.map_map]
    rfl
  have z0 : ∀ i, i = 2 ∨ i = 3 ∨ i = 4 ∨ i = 5 → apart (fs.map (·.unit)) n u i = 0 := by
    intro i hi
    rw [ap, hu' i hi]
    unfold byUnits
    rw [List.map_congr_left (g := fun _ => 0) (fun f _ => hu f.unit i hi)]
    simp
  rw [z0 2 (by simp), zero_add, ap] at t2
  rw [z0 3 (by simp), zero_add, ap] at t3
  rw [z0 4 (by simp), zero_add, ap] at t4
  rw [z0 5 (by simp), zero_add, ap] at t5
  have r2 : recRise (M' ++ S') = 0 := by
    simp only [recRise, List.map_append, List.sum_append] at *
    rw [E2, R2]; ring
  have r3 : recSeep (M' ++ S') = recSeep M' + recSeep S' := by simp only [recSeep, List.map_append, List.sum_append]
  have r4 : recSegRxn (M' ++ S') = recSegRxn S' := by
    simp only [recSegRxn, List.map_append, List.sum_append]
    rw [sum_zero_of M' _ fun e he => by obtain ⟨⟨f, hf, hp⟩, -⟩ := L2 e he; exact (proper_seg hp).1, zero_add]
  have r5 : recSegFin (M' ++ S') = recSegFin S' := by
    simp only [recSegFin, List.map_append, List.sum_append]
    rw [sum_zero_of M' _ fun e he => by obtain ⟨⟨f, hf, hp⟩, -⟩ := L2 e he; exact (proper_seg hp).2, zero_add]
  have dr : drained fs s1 = drained fs s' := by
    unfold drained
    congr 1
    apply List.map_congr_left
    intro f _
    rw [Flow.key, same]
  obtain ⟨v1, v2⟩ := moved_stream hb hv.stream w2 (fs.map (·.unit)) s'
  rw [r2] at t2
  rw [r3, E3, R3, dr, overSegs_add, v2] at t3
  rw [r4, R4] at t4
  have v3 : overSegs (fun j g => if j = 0 then 0 else g.down * at_ s' (.seg true j)) 0 (segs (fs.map (·.unit)) o.basin) =
      inStream true 1 o.basin.stream s' := by
    have : overSegs (fun j g => if j = 0 then 0 else g.down * at_ s' (.seg true j)) 0 (segs (fs.map (·.unit)) o.basin) +
        overSegs (fun j g => if j = 0 then g.down * at_ s' (.seg true j) else 0) 0 (segs (fs.map (·.unit)) o.basin) =
        overSegs (fun j g => g.down * at_ s' (.seg true j)) 0 (segs (fs.map (·.unit)) o.basin) := by
      rw [← overSegs_add]
      apply overSegs_congr
      intro i g _
      split <;> ring
    rw [v1, v2] at this
    linarith
  rw [r5, R5, v3] at t5
  refine ⟨c, t1, by linarith, by unfold reaches; linarith, by unfold reaches; linarith, by linarith, ?_⟩
  intro j g hj
  obtain ⟨q1, q2⟩ := R6 j g hj
  refine ⟨q1, ?_⟩
  rw [q2, hseg]
  unfold Seg.freshMol
  simp only [same]

end Verif.Transport
