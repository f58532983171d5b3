import Verif.Lemmas.TimeLoop
/-
C17, C18: which records of the data files become time steps.
-/
namespace Verif.TimeLoop

/-- C17, for every content of the data files (blank and malformed lines included): the run ends; its
steps are numbered 1, 2, 3, …; every step is a record of some data file with its own data, lies
inside the window and has a positive increment. -/
theorem C17_sound {α} (w : Window) (now : Time) (files : List (FileState α)) (hd : 0 < w.initialDeltat) :
    (batchRun w now files).2 ≠ .fuel ∧
    (batchRun w now files).1.map (fun s => s.nstep) = List.range' 1 (batchRun w now files).1.length ∧
    ∀ s ∈ (batchRun w now files).1, w.start ≤ s.now.jt ∧ s.now.jt ≤ w.stop ∧ 0 < s.deltat ∧
      ∃ f ∈ files, (s.now, s.data) = f.cur ∨ Item.record s.now s.data ∈ f.rest := by
  unfold batchRun
  split
  · have hle := leftAll_le files
    have := runLoop_sound w (unread files + files.length + 2) ⟨0, true, -1, now, w.initialDeltat / 24, files⟩
      (by dsimp only; omega) (by dsimp only; linarith)
    refine ⟨this.1, this.2.1, ?_⟩
    intro s hs
    obtain ⟨a, b, c, f, hf, hx⟩ := this.2.2 s hs
    refine ⟨a, b, c, f, hf, ?_⟩
    rcases List.mem_cons.1 hx with hx | hx
    · exact .inl hx
    · right
      obtain ⟨y, hy, he⟩ := List.mem_filterMap.1 hx
      cases y with
      | record t d => simp at he; obtain ⟨rfl, rfl⟩ := he; exact hy
      | blank => simp at he
      | bad => simp at he
  · simp

/-- C17: one data file with records `r :: rs` in order of time, followed by nothing or (if the last
record is not before the window) by a blank line and anything.  Exactly the records inside the window become time
steps, in order, numbered from 1; the first increment is initial_deltat, every further one the
difference to the record before; the run ends with code 1 (end of the window reached) if some record
is after the window and with code 2 (end of file) otherwise. -/
theorem C17_steps {α} (w : Window) (now : Time) (r : Time × α) (rs : List (Time × α)) (tail : List (Item α))
    (hord : Ordered (r :: rs)) (hw : w.start ≤ w.stop)
    (hd : tick ≤ w.initialDeltat / 24) (hpos : w.initialDeltat / 24 ≤ r.1.jt)
    (hfirst : r.1.jd ≤ w.startJd)
    (htail : tail = [] ∨ ((∃ t, tail = .blank :: t) ∧ ∀ l, (r :: rs).getLast? = some l → w.start ≤ l.1.jt)) :
    Delivers (batchRun w now [openFile r (rs.map (fun x => .record x.1 x.2) ++ tail)]).1
      (w.initialDeltat / 24) ((r :: rs).filter (inWindow w)) ∧
    (batchRun w now [openFile r (rs.map (fun x => .record x.1 x.2) ++ tail)]).2 =
      .code (if ∃ x ∈ r :: rs, w.stop < x.1.jt then 1 else 2) := by
  have hchk : dataCheckStart w [openFile r (rs.map (fun x => .record x.1 x.2) ++ tail)] = true := by
    simp [dataCheckStart, openFile, hfirst]
  unfold batchRun
  rw [if_pos hchk]
  have hy := yields_single w.start tail rs r htail
  have hlen : (r :: rs).length < unread [openFile r (rs.map (fun x => .record x.1 x.2) ++ tail)] + 1 + 1 := by
    simp [unread, openFile]; omega
  have := runLoop_yields w now hy hord hw hd (fun x hx => by
      rcases List.mem_cons.1 hx with rfl | hx
      · exact hpos
      · have := (List.pairwise_cons.1 hord).1 x hx
        have ht : (0 : Rat) ≤ tick := by unfold tick; norm_num
        linarith)
    (w.initialDeltat / 24) (-1) (n := unread [openFile r (rs.map (fun x => .record x.1 x.2) ++ tail)] + 1 + 2)
    (Nat.lt_succ_of_lt hlen) hlen
  unfold openFile at this ⊢
  simp only [List.length_singleton, this]
  refine ⟨expected_delivers _ 0 _, ?_⟩
  rw [endCode_eq]

example : ∃ (w : Window) (r : Time × Nat) (rs : List (Time × Nat)),
    Ordered (r :: rs) ∧ w.start ≤ w.stop ∧ tick ≤ w.initialDeltat / 24 ∧ w.initialDeltat / 24 ≤ r.1.jt ∧
    r.1.jd ≤ w.startJd ∧ (r :: rs).filter (inWindow w) ≠ [] ∧ (r :: rs).filter (inWindow w) ≠ r :: rs :=
  ⟨⟨2, 2, 3, 24⟩, (⟨1, 1⟩, 10), [(⟨2, 2⟩, 20), (⟨2, 5/2⟩, 21), (⟨4, 4⟩, 40)], by
    unfold Ordered; decide +kernel, by decide +kernel, by decide +kernel, by decide +kernel, by decide +kernel,
    by decide +kernel, by decide +kernel⟩

/-- C17 does not hold when a line after a record is malformed: the record before it is read but no
time step is made of it (the run ends with code 100). -/
theorem C17_malformed_violated :
    batchRun ⟨1, 1, 9, 24⟩ ⟨0, 0⟩ [openFile (⟨1, 1⟩, 10) [.record ⟨2, 2⟩ 20, .bad]] =
      ([⟨1, ⟨1, 1⟩, 1, 10⟩], .code 100) := by decide +kernel

/-- C17: an empty line ends the file quietly inside the window, but before the window it is an error. -/
theorem C17_blank_violated :
    batchRun ⟨1, 1, 9, 24⟩ ⟨0, 0⟩ [openFile (⟨1, 1⟩, 10) [.blank, .record ⟨2, 2⟩ 20]] =
      ([⟨1, ⟨1, 1⟩, 1, 10⟩], .code 2) ∧
    batchRun ⟨2, 2, 9, 24⟩ ⟨0, 0⟩ [openFile (⟨1, 1⟩, 10) [.blank, .record ⟨2, 2⟩ 20]] =
      ([], .code 100) := by decide +kernel

/-- C18 (partial): several data files, each ordered by time, no two sharing a day, the first file
having the last day: the run is over the merged records, in order of time, each record exactly once.

Missing: the claim is false if another file ends after the first one
(`C18_first_file_ends_violated`, `C18_closed_file_violated`), and records sharing their day with a
later record of another file are dropped on purpose (`C18_same_day_violated`). -/
theorem C18_merge_partial {α} (w : Window) (now : Time) (f0 : (Time × α) × List (Time × α))
    (others : List ((Time × α) × List (Time × α)))
    (hord : ∀ f ∈ f0 :: others, Ordered (f.1 :: f.2))
    (hdays : (f0 :: others).Pairwise fun f g => ∀ a ∈ f.1 :: f.2, ∀ b ∈ g.1 :: g.2, a.1.jd ≠ b.1.jd)
    (hjt : ∀ f ∈ f0 :: others, ∀ g ∈ f0 :: others, ∀ a ∈ f.1 :: f.2, ∀ b ∈ g.1 :: g.2,
      a.1.jd < b.1.jd → a.1.jt + tick ≤ b.1.jt)
    (hlast : ∀ g ∈ others, ∀ b ∈ g.1 :: g.2, ∃ a ∈ f0.1 :: f0.2, b.1.jd < a.1.jd)
    (hw : w.start ≤ w.stop) (hd : tick ≤ w.initialDeltat / 24)
    (hpos : ∀ f ∈ f0 :: others, ∀ a ∈ f.1 :: f.2, w.initialDeltat / 24 ≤ a.1.jt)
    (hfirst : ∃ f ∈ f0 :: others, f.1.1.jd ≤ w.startJd) :
    ∃ merged : List (Time × α), merged.Perm ((f0 :: others).flatMap fun f => f.1 :: f.2) ∧ Ordered merged ∧
      Delivers (batchRun w now ((f0 :: others).map fun f => fileOf f.1 f.2)).1 (w.initialDeltat / 24)
        (merged.filter (inWindow w)) ∧
      (batchRun w now ((f0 :: others).map fun f => fileOf f.1 f.2)).2 =
        .code (if ∃ x ∈ merged, w.stop < x.1.jt then 1 else 2) := by
  refine merge_run w now (f0 :: others) hord ?_ hjt ⟨f0, rfl, ?_⟩ hw hd hpos hfirst
  · intro i j f g hij hf hg a ha b hb
    obtain ⟨hi, rfl⟩ := List.getElem?_eq_some_iff.1 hf
    obtain ⟨hj, rfl⟩ := List.getElem?_eq_some_iff.1 hg
    rcases Nat.lt_or_gt_of_ne hij with h | h
    · exact List.pairwise_iff_getElem.1 hdays i j hi hj h a ha b hb
    · exact fun e => List.pairwise_iff_getElem.1 hdays j i hj hi h b hb a ha e.symm
  · intro i g hi hg
    obtain ⟨i, rfl⟩ : ∃ k, i = k + 1 := ⟨i - 1, by omega⟩
    exact hlast g (List.mem_of_getElem? (by simpa using hg))

/-- Witness: a daily file interrupted by a storm file satisfies the hypotheses; the run is as shown. -/
example : ∃ (w : Window) (f0 : (Time × Nat) × List (Time × Nat)) (others : List ((Time × Nat) × List (Time × Nat))),
    (∀ f ∈ f0 :: others, (f.1 :: f.2).Pairwise fun a b => a.1.jt + tick ≤ b.1.jt) ∧
    ((f0 :: others).Pairwise fun f g => ∀ a ∈ f.1 :: f.2, ∀ b ∈ g.1 :: g.2, a.1.jd ≠ b.1.jd) ∧
    (∀ f ∈ f0 :: others, ∀ g ∈ f0 :: others, ∀ a ∈ f.1 :: f.2, ∀ b ∈ g.1 :: g.2,
      a.1.jd < b.1.jd → a.1.jt + tick ≤ b.1.jt) ∧
    (∀ g ∈ others, ∀ b ∈ g.1 :: g.2, ∃ a ∈ f0.1 :: f0.2, b.1.jd < a.1.jd) ∧
    w.start ≤ w.stop ∧ tick ≤ w.initialDeltat / 24 ∧
    (∀ f ∈ f0 :: others, ∀ a ∈ f.1 :: f.2, w.initialDeltat / 24 ≤ a.1.jt) ∧
    (∃ f ∈ f0 :: others, f.1.1.jd ≤ w.startJd) ∧
    batchRun w ⟨0, 0⟩ ((f0 :: others).map fun f => fileOf f.1 f.2) =
      ([⟨1, ⟨1, 1⟩, 1, 10⟩, ⟨2, ⟨2, 9/4⟩, 5/4, 201⟩, ⟨3, ⟨2, 10/4⟩, 1/4, 202⟩, ⟨4, ⟨3, 3⟩, 1/2, 30⟩], .code 2) :=
  ⟨⟨1, 1, 9, 24⟩, ((⟨1, 1⟩, 10), [(⟨3, 3⟩, 30)]), [((⟨2, 9/4⟩, 201), [(⟨2, 10/4⟩, 202)])], by decide +kernel⟩

/-- C18 does not hold when the first file ends before another one: the run stops at the end of the
first file and the remaining records of the other file are never delivered. -/
theorem C18_first_file_ends_violated :
    batchRun ⟨1, 1, 9, 24⟩ ⟨0, 0⟩ [openFile (⟨1, 1⟩, 10) [], openFile (⟨2, 2⟩, 20) [.record ⟨3, 3⟩ 30]] =
      ([⟨1, ⟨1, 1⟩, 1, 10⟩], .code 2) := by decide +kernel

/-- C18: if the last record of the first file and a later record of another file share their day, the
code reads from the closed first file (undefined behaviour). -/
theorem C18_closed_file_violated :
    batchRun ⟨1, 1, 9, 24⟩ ⟨0, 0⟩
      [openFile (⟨2, 2⟩, 10) [], openFile (⟨1, 1⟩, 20) [.record ⟨2, 9/4⟩ 30, .record ⟨2, 10/4⟩ 31, .record ⟨2, 11/4⟩ 32]] =
      ([⟨1, ⟨1, 1⟩, 1, 20⟩, ⟨2, ⟨2, 9/4⟩, 1/4, 30⟩], .ub) := by decide +kernel

/-- C18, by design of the code: of two records with the same day in different files the earlier one is
dropped, although it is inside the window. -/
theorem C18_same_day_violated :
    batchRun ⟨1, 1, 9, 24⟩ ⟨0, 0⟩
      [openFile (⟨1, 1⟩, 10) [.record ⟨2, 2⟩ 20, .record ⟨3, 3⟩ 30], openFile (⟨2, 9/4⟩, 21) []] =
      ([⟨1, ⟨1, 1⟩, 1, 10⟩, ⟨2, ⟨2, 9/4⟩, 1/4, 21⟩, ⟨3, ⟨3, 3⟩, 3/4, 30⟩], .code 2) := by decide +kernel

end Verif.TimeLoop
