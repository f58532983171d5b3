import Verif.Spec.TimeLoop
import Mathlib.Algebra.Order.Ring.Rat
import Mathlib.Algebra.Order.Field.Rat
import Mathlib.Tactic.Linarith
import Mathlib.Tactic.NormNum
import Mathlib.Tactic.Ring
/- Helper lemmas for the time loop. -/
namespace Verif.TimeLoop

/-- `fs` yields the records `L`, one per call, without reordering or reading a bad line. -/
inductive Yields {α} (start : Rat) : List (FileState α) → List (Time × α) → Prop where
  | done {fs : List (FileState α)} {cur : Nat} {f : FileState α} (h1 : ∀ p, fileWithNextTs fs p = .ok fs cur p)
      (h2 : fs[cur]? = some f) (h3 : f.atEnd = true) : Yields start fs []
  | next {fs : List (FileState α)} {cur : Nat} {f f' : FileState α} {L : List (Time × α)}
      (h1 : ∀ p, fileWithNextTs fs p = .ok fs cur p)
      (h2 : fs[cur]? = some f) (h3 : f.atEnd = false) (h4 : advance true f = .ok f')
      (h5 : f.cur.1.jt < start → advance false f = .ok f') (h6 : Yields start (fs.set cur f') L) :
      Yields start fs (f.cur :: L)

/-- Steps predicted for the records `rs`, all inside the window. -/
def expected {α} (k : Nat) (first : Rat) : List (Time × α) → List (Step α)
  | [] => []
  | [r] => [⟨k + 1, r.1, first, r.2⟩]
  | r :: s :: rs => ⟨k + 1, r.1, first, r.2⟩ :: expected (k + 1) (s.1.jt - r.1.jt) (s :: rs)

theorem expected_delivers {α} (rs : List (Time × α)) : ∀ (k : Nat) (first : Rat),
    (expected k first rs).map (fun s => (s.now, s.data)) = rs ∧
    (expected k first rs).map (fun s => s.nstep) = List.range' (k + 1) rs.length ∧
    Increments first (rs.map fun r => r.1.jt) ((expected k first rs).map fun s => s.deltat) := by
  induction rs with
  | nil => intro k first; simp [expected, Increments]
  | cons r rs ih =>
    intro k first
    cases rs with
    | nil => simp [expected, Increments]
    | cons s rs =>
      obtain ⟨h1, h2, h3⟩ := ih (k + 1) (s.1.jt - r.1.jt)
      refine ⟨?_, ?_, ?_⟩
      · simp only [expected, List.map_cons, h1]
      · simp only [expected, List.map_cons, h2, List.length_cons]
        rw [show List.range' (k + 1) (rs.length + 1 + 1) = (k + 1) :: List.range' (k + 1 + 1) (rs.length + 1) from rfl]
      · simp only [expected, List.map_cons, Increments] at h3 ⊢
        exact ⟨first, _, rfl, rfl, h3⟩

/-- End code: 1 if a record after the window stopped the run, else 2. -/
def endCode {α} (w : Window) (rs : List (Time × α)) : Nat :=
  if rs.any fun r => decide (r.1.jt > w.stop) then 1 else 2

theorem endCode_eq {α} (w : Window) (rs : List (Time × α)) :
    endCode w rs = if ∃ x ∈ rs, w.stop < x.1.jt then 1 else 2 := by
  unfold endCode
  by_cases h : ∃ x ∈ rs, w.stop < x.1.jt
  · rw [if_pos h, if_pos]
    obtain ⟨x, hx, hlt⟩ := h
    exact List.any_eq_true.2 ⟨x, hx, decide_eq_true hlt⟩
  · rw [if_neg h, if_neg]
    intro hc
    obtain ⟨x, hx, hlt⟩ := List.any_eq_true.1 hc
    exact h ⟨x, hx, of_decide_eq_true hlt⟩

theorem any_cons_before {α} (w : Window) (r : Time × α) (rs : List (Time × α)) (h : r.1.jt ≤ w.stop) :
    endCode w (r :: rs) = endCode w rs := by
  unfold endCode
  have : decide (r.1.jt > w.stop) = false := by simpa using h
  rw [List.any_cons, this, Bool.false_or]

theorem filter_after {α} (w : Window) (r : Time × α) (rs : List (Time × α)) (ho : Ordered (r :: rs))
    (h : r.1.jt > w.stop) : (r :: rs).filter (inWindow w) = [] := by
  rw [List.filter_eq_nil_iff]
  intro x hx
  have hle : r.1.jt ≤ x.1.jt := by
    rcases List.mem_cons.1 hx with rfl | hx
    · exact le_refl _
    · have := List.rel_of_pairwise_cons ho hx
      unfold tick at this
      linarith
  have : ¬ x.1.jt ≤ w.stop := by linarith
  simp [inWindow, this]

/-- One call inside the run: the state after at least one step, next record at or after start. -/
theorem readLine_next {α} (w : Window) {fs : List (FileState α)} {r : Time × α} {L : List (Time × α)}
    (hy : Yields w.start fs (r :: L)) {k : Nat} (hk : 0 < k) {p : Rat} (hp : 0 ≤ p)
    (hr : p + tick ≤ r.1.jt) (hs : w.start ≤ r.1.jt) (now : Time) (dt : Rat) :
    (r.1.jt ≤ w.stop → ∃ fs', Yields w.start fs' L ∧
      readLine w ⟨k, false, p, now, dt, fs⟩ =
        .step ⟨k + 1, false, r.1.jt, r.1, r.1.jt - p, fs'⟩ r.2) ∧
    (w.stop < r.1.jt → ∃ st, readLine w ⟨k, false, p, now, dt, fs⟩ = .stop 1 st) := by
  cases hy with
  | @next _ cur f f' _ h1 h2 h3 h4 h5 h6 =>
    have hk0 : ¬ k = 0 := by omega
    have hlt : ¬ (p < 0 ∧ f.cur.1.jt - p ≤ 1 / 1000000) := by
      rintro ⟨h, _⟩; linarith
    unfold readLine
    simp only [hk0, if_false]
    rw [loop]
    simp only [h1, h2, h3, Bool.false_eq_true, if_false, hlt]
    constructor
    · intro hle
      have hng : ¬ f.cur.1.jt > w.stop := by linarith
      refine ⟨_, h6, ?_⟩
      unfold tick at hr
      have hinc : increment f.cur.1.jt p dt = some (f.cur.1.jt - p) := by
        unfold increment
        rw [if_neg (by linarith), if_neg (by linarith), if_neg (by linarith)]
      simp only [hng, if_false, hs, ge_iff_le, if_true, deliver, Bool.false_eq_true, hinc, h4]
    · intro hgt
      exact ⟨_, by simp [hgt]; rfl⟩

theorem readLine_done {α} (w : Window) {fs : List (FileState α)}
    (hy : Yields w.start fs []) {k : Nat} (hk : 0 < k) (p : Rat) (now : Time) (dt : Rat) :
    ∃ st, readLine w ⟨k, false, p, now, dt, fs⟩ = .stop 2 st := by
  cases hy with
  | done h1 h2 h3 =>
    have hk0 : ¬ k = 0 := by omega
    unfold readLine
    simp only [hk0, if_false]
    rw [loop]
    simp only [h1, h2, h3, if_true]
    exact ⟨_, rfl⟩

theorem runLoop_steps {α} (w : Window) :
    ∀ (L : List (Time × α)) {fs : List (FileState α)}, Yields w.start fs L → Ordered L →
      (∀ r ∈ L, w.start ≤ r.1.jt) → ∀ {k : Nat}, 0 < k → ∀ {p : Rat}, 0 ≤ p →
      (∀ r ∈ L, p + tick ≤ r.1.jt) → ∀ (now : Time) (dt : Rat) {n : Nat}, L.length < n →
      runLoop w n ⟨k, false, p, now, dt, fs⟩ =
        (expected k ((L.head?.map fun r => r.1.jt - p).getD 0) (L.filter (inWindow w)),
          .code (endCode w L)) := by
  intro L
  induction L with
  | nil =>
    intro fs hy _ _ k hk p hp _ now dt n hn
    obtain ⟨n, rfl⟩ : ∃ m, n = m + 1 := ⟨n - 1, by simp at hn; omega⟩
    obtain ⟨st, h⟩ := readLine_done w hy hk p now dt
    rw [runLoop, h]
    simp [expected, endCode]
  | cons r L ih =>
    intro fs hy ho hs k hk p hp hpt now dt n hn
    obtain ⟨n, rfl⟩ : ∃ m, n = m + 1 := ⟨n - 1, by simp at hn; omega⟩
    have hrn := readLine_next w hy hk hp (hpt r (by simp)) (hs r (by simp)) now dt
    by_cases hle : r.1.jt ≤ w.stop
    · obtain ⟨fs', hy', he⟩ := hrn.1 hle
      have hr0 : 0 ≤ r.1.jt := by
        have := hpt r (by simp)
        have : (0 : Rat) ≤ tick := by unfold tick; norm_num
        linarith
      have ho' : Ordered L := (List.pairwise_cons.1 ho).2
      have := ih hy' ho' (fun x hx => hs x (by simp [hx])) (k := k + 1) (by omega) (p := r.1.jt) hr0
        (fun x hx => (List.pairwise_cons.1 ho).1 x hx) r.1 (r.1.jt - p) (n := n) (by simp at hn; omega)
      rw [runLoop, he]
      simp only [this]
      have hin : inWindow w r = true := by simp [inWindow, hle, hs r (by simp)]
      rw [any_cons_before w r L hle, List.filter_cons, if_pos hin]
      simp only [List.head?_cons, Option.map_some, Option.getD_some, Prod.mk.injEq, and_true]
      cases L with
      | nil => simp [expected]
      | cons s L =>
        simp only [List.head?_cons, Option.map_some, Option.getD_some]
        by_cases hle2 : s.1.jt ≤ w.stop
        · have hin2 : inWindow w s = true := by simp [inWindow, hle2, hs s (by simp)]
          rw [List.filter_cons, if_pos hin2]
          simp [expected]
        · rw [filter_after w s L ho' (by linarith)]
          simp [expected]
    · obtain ⟨st, he⟩ := hrn.2 (by linarith)
      rw [runLoop, he]
      rw [filter_after w r L ho (by linarith)]
      have : endCode w (r :: L) = 1 := by
        unfold endCode
        have : decide (r.1.jt > w.stop) = true := by simpa using hle
        simp [this]
      simp [expected, this]

/-- The first call: skip records before the window. -/
theorem loop_first {α} (w : Window) (pt : Time) :
    ∀ (L : List (Time × α)) {fs : List (FileState α)}, Yields w.start fs L → ∀ (p : Rat), 0 ≤ p →
      (∀ r ∈ L, 0 ≤ r.1.jt) → w.start ≤ w.stop →
      ∀ (now : Time) (dt : Rat) {n : Nat}, L.length < n →
      (∃ st, loop w pt n ⟨0, true, p, now, dt, fs⟩ = .stop 2 st ∧ (∀ r ∈ L, r.1.jt < w.start)) ∨
      (∃ pre r L', L = pre ++ r :: L' ∧ (∀ x ∈ pre, x.1.jt < w.start) ∧ w.start ≤ r.1.jt ∧
        ((w.stop < r.1.jt ∧ ∃ st, loop w pt n ⟨0, true, p, now, dt, fs⟩ = .stop 1 st) ∨
         (r.1.jt ≤ w.stop ∧ tick ≤ w.initialDeltat / 24 ∧ w.initialDeltat / 24 ≤ r.1.jt ∧
          ∃ fs', Yields w.start fs' L' ∧ loop w pt n ⟨0, true, p, now, dt, fs⟩ =
            .step ⟨1, false, r.1.jt, r.1, w.initialDeltat / 24, fs'⟩ r.2) ∨
         ¬ (tick ≤ w.initialDeltat / 24 ∧ w.initialDeltat / 24 ≤ r.1.jt))) := by
  intro L
  induction L with
  | nil =>
    intro fs hy p hp _ _ now dt n hn
    obtain ⟨n, rfl⟩ : ∃ m, n = m + 1 := ⟨n - 1, by simp at hn; omega⟩
    left
    cases hy with
    | done h1 h2 h3 =>
      rw [loop]
      simp only [h1, h2, h3, if_true]
      exact ⟨_, rfl, by simp⟩
  | cons r L ih =>
    intro fs hy p hp h0 hw now dt n hn
    obtain ⟨n, rfl⟩ : ∃ m, n = m + 1 := ⟨n - 1, by simp at hn; omega⟩
    cases hy with
    | @next _ cur f f' _ h1 h2 h3 h4 h5 h6 =>
      have hlt : ¬ (p < 0 ∧ f.cur.1.jt - p ≤ 1 / 1000000) := by
        rintro ⟨h, _⟩; linarith
      rw [loop]
      simp only [h1, h2, h3, Bool.false_eq_true, if_false, hlt]
      by_cases hs : w.start ≤ f.cur.1.jt
      · right
        refine ⟨[], f.cur, L, rfl, by simp, hs, ?_⟩
        by_cases hle : w.stop < f.cur.1.jt
        · left
          exact ⟨hle, _, by simp [hle]; rfl⟩
        · right
          by_cases hd : tick ≤ w.initialDeltat / 24 ∧ w.initialDeltat / 24 ≤ f.cur.1.jt
          · left
            refine ⟨by linarith, hd.1, hd.2, _, h6, ?_⟩
            have hng : ¬ f.cur.1.jt > w.stop := hle
            have hd1 := hd.1
            unfold tick at hd1
            have hinc : increment f.cur.1.jt (f.cur.1.jt - w.initialDeltat / 24) dt = some (w.initialDeltat / 24) := by
              unfold increment
              rw [if_neg (by linarith), if_neg (by linarith), if_neg (by linarith [hd.2])]
              congr 1; ring
            simp only [hng, if_false, hs, ge_iff_le, if_true, deliver, hinc, h4]
          · right; exact hd
      · have hs' : f.cur.1.jt < w.start := by linarith
        have hng : ¬ f.cur.1.jt > w.stop := by linarith
        have hge : ¬ f.cur.1.jt ≥ w.start := by linarith
        simp only [hng, if_false, hge, h5 hs']
        rcases ih h6 f.cur.1.jt (h0 _ (by simp)) (fun x hx => h0 x (by simp [hx])) hw f.cur.1 dt (n := n)
          (by simp at hn; omega) with ⟨st, ha, hb⟩ | ⟨pre, r, L', ha, hb, hc, hd⟩
        · left
          refine ⟨st, ha, ?_⟩
          intro x hx
          rcases List.mem_cons.1 hx with rfl | hx
          · exact hs'
          · exact hb x hx
        · right
          refine ⟨f.cur :: pre, r, L', by simp [ha], ?_, hc, hd⟩
          intro x hx
          rcases List.mem_cons.1 hx with rfl | hx
          · exact hs'
          · exact hb x hx

theorem filter_before {α} (w : Window) (L : List (Time × α)) (h : ∀ r ∈ L, r.1.jt < w.start) :
    L.filter (inWindow w) = [] := by
  rw [List.filter_eq_nil_iff]
  intro x hx
  have : ¬ w.start ≤ x.1.jt := by have := h x hx; linarith
  simp [inWindow, this]

theorem endCode_before {α} (w : Window) (pre L : List (Time × α)) (hw : w.start ≤ w.stop)
    (h : ∀ r ∈ pre, r.1.jt < w.start) : endCode w (pre ++ L) = endCode w L := by
  induction pre with
  | nil => rfl
  | cons r pre ih =>
    rw [List.cons_append, any_cons_before w r _ (by have := h r (by simp); linarith)]
    exact ih fun x hx => h x (by simp [hx])

/-- The whole run for any set of files that yields `L`. -/
theorem runLoop_yields {α} (w : Window) (now : Time) {fs : List (FileState α)} {L : List (Time × α)}
    (hy : Yields w.start fs L) (ho : Ordered L) (hw : w.start ≤ w.stop)
    (hd : tick ≤ w.initialDeltat / 24) (h0 : ∀ r ∈ L, w.initialDeltat / 24 ≤ r.1.jt)
    (dt : Rat) (p : Rat) {n : Nat} (hn : L.length < n) (hf : L.length < unread fs + fs.length + 1) :
    runLoop w n ⟨0, true, p, now, dt, fs⟩ =
      (expected 0 (w.initialDeltat / 24) (L.filter (inWindow w)), .code (endCode w L)) := by
  have htick : (0 : Rat) ≤ tick := by unfold tick; norm_num
  obtain ⟨n, rfl⟩ : ∃ m, n = m + 1 := ⟨n - 1, by omega⟩
  rw [runLoop]
  have hrl : readLine w ⟨0, true, p, now, dt, fs⟩ =
      loop w now (unread fs + fs.length + 1) ⟨0, true, 1, now, dt, fs⟩ := by
    simp [readLine]
  rw [hrl]
  rcases loop_first w now L hy 1 (by norm_num) (fun r hr => by have := h0 r hr; linarith) hw now dt hf
    with ⟨st, ha, hb⟩ | ⟨pre, r, L', ha, hb, hc, hd' | hd' | hd'⟩
  · rw [ha, filter_before w L hb]
    have : endCode w L = 2 := by
      have := endCode_before w L [] hw hb
      rw [List.append_nil] at this
      rw [this]; rfl
    simp [expected, this]
  · obtain ⟨hgt, st, he⟩ := hd'
    rw [he]
    subst ha
    have ho2 : Ordered (r :: L') := (List.pairwise_append.1 ho).2.1
    rw [List.filter_append, filter_before w pre hb, filter_after w r L' ho2 hgt,
      endCode_before w pre _ hw hb]
    have : endCode w (r :: L') = 1 := by
      unfold endCode
      have : decide (r.1.jt > w.stop) = true := by simpa using hgt
      simp [this]
    simp [expected, this]
  · obtain ⟨hle, h1, h2, fs', hy', he⟩ := hd'
    rw [he]
    subst ha
    have ho2 : Ordered (r :: L') := (List.pairwise_append.1 ho).2.1
    have ho3 : Ordered L' := (List.pairwise_cons.1 ho2).2
    have hst := runLoop_steps w L' hy' ho3 (fun x hx => by
        have := (List.pairwise_cons.1 ho2).1 x hx
        linarith) (k := 1) (by omega) (p := r.1.jt) (by linarith) (fun x hx => (List.pairwise_cons.1 ho2).1 x hx)
      r.1 (w.initialDeltat / 24) (n := n) (by simp at hn; omega)
    simp only [hst]
    have hin : inWindow w r = true := by simp [inWindow, hle, hc]
    rw [List.filter_append, filter_before w pre hb, endCode_before w pre _ hw hb,
      any_cons_before w r L' hle, List.nil_append, List.filter_cons, if_pos hin]
    cases L' with
    | nil => simp [expected]
    | cons s L =>
      simp only [List.head?_cons, Option.map_some, Option.getD_some]
      by_cases hle2 : s.1.jt ≤ w.stop
      · have hss : w.start ≤ s.1.jt := by
          have := (List.pairwise_cons.1 ho2).1 s (by simp)
          linarith
        have hin2 : inWindow w s = true := by simp [inWindow, hle2, hss]
        rw [List.filter_cons, if_pos hin2]
        simp [expected]
      · rw [filter_after w s L ho3 (by linarith)]
        simp [expected]
  · exact absurd ⟨hd, h0 r (by rw [ha]; simp)⟩ hd'

theorem next_single {α} (f : FileState α) (p : Rat) : fileWithNextTs [f] p = .ok [f] 0 p := by
  simp [fileWithNextTs, pickLoop]

theorem yields_single {α} (start : Rat) (tail : List (Item α)) :
    ∀ (rs : List (Time × α)) (r : Time × α),
      (tail = [] ∨ ((∃ t, tail = .blank :: t) ∧ ∀ l, (r :: rs).getLast? = some l → start ≤ l.1.jt)) →
      Yields start [⟨r, false, true, rs.map (fun x => .record x.1 x.2) ++ tail⟩] (r :: rs)
  | [], r, ht => by
    have hdone : ∀ t : List (Item α), Yields start [⟨r, true, false, t⟩] [] := fun t =>
      .done (cur := 0) (next_single _) rfl rfl
    rcases ht with rfl | ⟨⟨t, rfl⟩, hl⟩
    · exact .next (cur := 0) (f := ⟨r, false, true, []⟩) (f' := ⟨r, true, false, []⟩) (next_single _) rfl rfl rfl
        (fun _ => rfl) (hdone [])
    · refine .next (cur := 0) (f := ⟨r, false, true, .blank :: t⟩) (f' := ⟨r, true, false, t⟩) (next_single _) rfl rfl rfl
        (fun h => ?_) (hdone t)
      have := hl r (by simp)
      linarith
  | s :: rs, r, ht => by
    have hrec : Yields start [⟨s, false, true, rs.map (fun x => .record x.1 x.2) ++ tail⟩] (s :: rs) := by
      refine yields_single start tail rs s ?_
      rcases ht with rfl | ⟨hb, hl⟩
      · exact .inl rfl
      · exact .inr ⟨hb, fun l h => hl l (by simpa using h)⟩
    exact .next (cur := 0) (f := ⟨r, false, true, (s :: rs).map (fun x => .record x.1 x.2) ++ tail⟩)
      (next_single _) rfl rfl rfl (fun _ => rfl) hrec

/-! Termination and soundness for arbitrary files -/

/-- Number of `fgets` calls a file can still take. -/
def left {α} (f : FileState α) : Nat := f.rest.length + (if f.isOpen then 1 else 0)

def leftAll {α} (fs : List (FileState α)) : Nat := (fs.map left).sum

theorem leftAll_le {α} (fs : List (FileState α)) : leftAll fs ≤ unread fs + fs.length := by
  induction fs with
  | nil => simp [leftAll, unread]
  | cons f fs ih =>
    simp only [leftAll, unread, List.map_cons, List.sum_cons, List.length_cons] at ih ⊢
    have : left f ≤ f.rest.length + 1 := by unfold left; split <;> omega
    omega

theorem advance_left {α} {b : Bool} {f f' : FileState α} (h : advance b f = .ok f') : left f' < left f := by
  unfold advance at h
  split at h
  · rename_i ho
    split at h
    · rename_i hr
      injection h with h; subst h
      simp [left, ho, hr]
    · rename_i hr
      injection h with h; subst h
      simp [left, ho, hr]
    · rename_i hr
      split at h
      · injection h with h; subst h
        simp [left, ho, hr]; omega
      · simp at h
    · simp at h
  · simp at h

theorem leftAll_set {α} (fs : List (FileState α)) (i : Nat) (f f' : FileState α) (h : fs[i]? = some f)
    (hl : left f' < left f) : leftAll (fs.set i f') < leftAll fs := by
  induction fs generalizing i with
  | nil => simp at h
  | cons g fs ih =>
    cases i with
    | zero =>
      simp at h; subst h
      simp [leftAll]; omega
    | succ i =>
      have := ih i (by simpa using h)
      simp [leftAll] at this ⊢; omega

/-- All records a file can still deliver: the current one and the unread ones. -/
def pool {α} (f : FileState α) : List (Time × α) :=
  f.cur :: f.rest.filterMap fun | .record t d => some (t, d) | _ => none

theorem advance_pool {α} {b : Bool} {f f' : FileState α} (h : advance b f = .ok f') : pool f' ⊆ pool f := by
  unfold advance at h
  split at h
  · split at h
    · injection h with h; subst h
      simp [pool]
    · rename_i hr
      injection h with h; subst h
      intro x hx
      simp only [pool, hr, List.filterMap_cons, List.mem_cons] at hx ⊢
      exact .inr hx
    · rename_i hr
      split at h
      · injection h with h; subst h
        intro x hx
        simpa [pool, hr] using hx
      · simp at h
    · simp at h
  · simp at h

/-- `fs'` holds no records beyond those of `fs`. -/
def Within {α} (fs' fs : List (FileState α)) : Prop := ∀ f' ∈ fs', ∀ x ∈ pool f', ∃ f ∈ fs, x ∈ pool f

theorem Within.refl {α} (fs : List (FileState α)) : Within fs fs := fun f hf _ hx => ⟨f, hf, hx⟩

theorem Within.trans {α} {a b c : List (FileState α)} (h : Within a b) (h' : Within b c) : Within a c := by
  intro f hf x hx
  obtain ⟨g, hg, hx⟩ := h f hf x hx
  exact h' g hg x hx

theorem within_set {α} {b : Bool} {fs : List (FileState α)} {i : Nat} {f f' : FileState α} (h : fs[i]? = some f)
    (ha : advance b f = .ok f') : Within (fs.set i f') fs := by
  intro g hg x hx
  rcases List.mem_or_eq_of_mem_set hg with hg | rfl
  · exact ⟨g, hg, hx⟩
  · exact ⟨f, List.mem_of_getElem? h, advance_pool ha hx⟩

theorem pickStep_mono {α} {fs fs' : List (FileState α)} {cur i cur' : Nat} {p p' : Rat}
    (h : pickStep fs cur i p = .ok fs' cur' p') :
    leftAll fs' ≤ leftAll fs ∧ fs'.length = fs.length ∧ Within fs' fs := by
  unfold pickStep at h
  split at h
  · rename_i c f hc hf
    split at h
    · injection h with h1 h2 h3; subst h1; exact ⟨le_refl _, rfl, .refl _⟩
    · split at h
      · split at h
        · injection h with h1 h2 h3; subst h1; exact ⟨le_refl _, rfl, .refl _⟩
        · split at h
          · split at h
            · rename_i f' ha
              injection h with h1 h2 h3; subst h1
              exact ⟨le_of_lt (leftAll_set _ _ _ _ hf (advance_left ha)), by simp, within_set hf ha⟩
            · simp at h
            · simp at h
          · split at h
            · rename_i f' ha
              injection h with h1 h2 h3; subst h1
              exact ⟨le_of_lt (leftAll_set _ _ _ _ hc (advance_left ha)), by simp, within_set hc ha⟩
            · simp at h
            · simp at h
      · split at h
        · injection h with h1 h2 h3; subst h1; exact ⟨le_refl _, rfl, .refl _⟩
        · injection h with h1 h2 h3; subst h1; exact ⟨le_refl _, rfl, .refl _⟩
  · simp at h

theorem pickLoop_mono {α} (is : List Nat) : ∀ {fs fs' : List (FileState α)} {cur cur' : Nat} {p p' : Rat},
    pickLoop fs cur p is = .ok fs' cur' p' →
    leftAll fs' ≤ leftAll fs ∧ fs'.length = fs.length ∧ Within fs' fs := by
  induction is with
  | nil =>
    intro fs fs' cur cur' p p' h
    rw [pickLoop] at h
    injection h with h1 h2 h3; subst h1; exact ⟨le_refl _, rfl, .refl _⟩
  | cons i is ih =>
    intro fs fs' cur cur' p p' h
    rw [pickLoop] at h
    split at h
    · rename_i fs1 c1 p1 h1
      have a := pickStep_mono h1
      have b := ih h
      exact ⟨by omega, by omega, b.2.2.trans a.2.2⟩
    · simp at h
    · simp at h

/-- What one call guarantees, whatever the files contain. -/
structure CallOk {α} (w : Window) (st st' : State α) (d : α) : Prop where
  left : leftAll st'.files < leftAll st.files
  nsteps : st'.nsteps = st.nsteps + 1
  source : ∃ f ∈ st.files, (st'.now, d) ∈ pool f
  within : Within st'.files st.files
  after : w.start ≤ st'.now.jt
  before : st'.now.jt ≤ w.stop
  deltat : 0 < st.deltat → 0 < st'.deltat

theorem increment_pos {jt p dt d : Rat} (h : increment jt p dt = some d) (hd : 0 < dt) : 0 < d := by
  unfold increment at h
  split at h
  · simp at h
  · split at h
    · injection h with h; subst h; norm_num
    · split at h
      · injection h with h; subst h; exact hd
      · injection h with h; subst h; linarith

theorem loop_call {α} (w : Window) (pt : Time) : ∀ (n : Nat) (st : State α), leftAll st.files < n →
    loop w pt n st ≠ .fuel ∧ ∀ st' d, loop w pt n st = .step st' d → CallOk w st st' d := by
  intro n
  induction n with
  | zero => intro st h; omega
  | succ n ih =>
    intro st hn
    rw [loop]
    split
    · simp
    · simp
    · rename_i fs cur p hp
      have hm := pickLoop_mono _ hp
      split
      · simp
      · rename_i f hf
        split
        · simp
        · dsimp only
          split
          · simp
          · rename_i hstop
            split
            · rename_i hstart
              unfold deliver
              dsimp only
              split
              · simp
              · rename_i dt hinc
                split
                · rename_i f' ha
                  refine ⟨by simp, ?_⟩
                  intro st' d h
                  injection h with h1 h2; subst h1; subst h2
                  refine ⟨?_, rfl, ?_, ?_, hstart, not_lt.1 hstop, fun h => increment_pos hinc h⟩
                  · have := leftAll_set _ _ _ _ hf (advance_left ha)
                    dsimp only
                    omega
                  · exact hm.2.2 f (List.mem_of_getElem? hf) _ (by simp [pool])
                  · exact (within_set hf ha).trans hm.2.2
                · simp
                · simp
            · split
              · rename_i f' ha
                have hl := leftAll_set _ _ _ _ hf (advance_left ha)
                have := ih { st with files := fs.set cur f', prevjt := f.cur.1.jt, now := f.cur.1 } (by
                  dsimp only; omega)
                refine ⟨this.1, ?_⟩
                intro st' d h
                have hc := this.2 st' d h
                refine ⟨?_, hc.nsteps, ?_, ?_, hc.after, hc.before, hc.deltat⟩
                · have := hc.left; dsimp only at this; omega
                · obtain ⟨g, hg, hx⟩ := hc.source
                  exact ((within_set hf ha).trans hm.2.2) g hg _ hx
                · exact hc.within.trans ((within_set hf ha).trans hm.2.2)
              · simp
              · simp

theorem readLine_call {α} (w : Window) (st : State α) :
    readLine w st ≠ .fuel ∧ ∀ st' d, readLine w st = .step st' d → CallOk w st st' d := by
  unfold readLine
  have hle := leftAll_le st.files
  by_cases h : st.nsteps = 0
  · simp only [h, if_true]
    have := loop_call w st.now (unread st.files + st.files.length + 1)
      { st with startOfData := true, prevjt := 1 } (by dsimp only; omega)
    refine ⟨by simpa [h] using this.1, ?_⟩
    intro st' d hs
    have hc := this.2 st' d (by simpa [h] using hs)
    exact ⟨hc.left, hc.nsteps, hc.source, hc.within, hc.after, hc.before, hc.deltat⟩
  · simp only [h, if_false]
    exact loop_call w st.now _ st (by omega)

theorem runLoop_sound {α} (w : Window) : ∀ (n : Nat) (st : State α), leftAll st.files < n → 0 < st.deltat →
    (runLoop w n st).2 ≠ .fuel ∧
    (runLoop w n st).1.map (fun s => s.nstep) = List.range' (st.nsteps + 1) (runLoop w n st).1.length ∧
    ∀ s ∈ (runLoop w n st).1, w.start ≤ s.now.jt ∧ s.now.jt ≤ w.stop ∧ 0 < s.deltat ∧
      ∃ f ∈ st.files, (s.now, s.data) ∈ pool f := by
  intro n
  induction n with
  | zero => intro st h; omega
  | succ n ih =>
    intro st hn hd
    have hc := readLine_call w st
    rw [runLoop]
    split
    · rename_i st' d hs
      have hk := hc.2 st' d hs
      have := ih st' (by have := hk.left; omega) (hk.deltat hd)
      refine ⟨this.1, ?_, ?_⟩
      · simp only [List.map_cons, List.length_cons, this.2.1]
        rw [List.range'_succ, hk.nsteps]
      · intro s hs
        rcases List.mem_cons.1 hs with rfl | hs
        · exact ⟨hk.after, hk.before, hk.deltat hd, hk.source⟩
        · obtain ⟨a, b, c, f, hf, hx⟩ := this.2.2 s hs
          exact ⟨a, b, c, hk.within f hf _ hx⟩
    · simp
    · simp
    · simp
    · rename_i hf
      exact absurd hf hc.1

/-! Merging several files -/

/-- Records a well-formed open file still has to deliver. -/
def todo {α} (f : FileState α) : List (Time × α) := if f.atEnd then [] else pool f

/-- A file with only proper records left. -/
def Clean {α} (f : FileState α) : Prop :=
  f.atEnd = false → f.isOpen = true ∧ ∀ x ∈ f.rest, ∃ t d, x = .record t d

theorem pickLoop_min {α} (fs : List (FileState α)) (p : Rat)
    (hdist : ∀ (i j : Nat) (f g : FileState α), i ≠ j → fs[i]? = some f → fs[j]? = some g → f.atEnd = false → g.atEnd = false →
      f.cur.1.jd ≠ g.cur.1.jd) :
    ∀ (is : List Nat) (cur : Nat) (c : FileState α), fs[cur]? = some c → c.atEnd = false →
      (∀ i ∈ is, i < fs.length ∧ i ≠ cur) → is.Nodup →
      ∃ m f, (∀ p, pickLoop fs cur p is = .ok fs m p) ∧ fs[m]? = some f ∧ f.atEnd = false ∧
        ∀ i ∈ cur :: is, ∀ g, fs[i]? = some g → g.atEnd = false → f.cur.1.jd ≤ g.cur.1.jd := by
  intro is
  induction is with
  | nil =>
    intro cur c hc hce _ _
    refine ⟨cur, c, fun _ => rfl, hc, hce, ?_⟩
    intro i hi g hg _
    simp at hi; subst hi
    rw [hc] at hg; injection hg with hg; subst hg; exact le_refl _
  | cons i is ih =>
    intro cur c hc hce his hnd
    obtain ⟨hil, hic⟩ := his i (by simp)
    obtain ⟨f, hf⟩ : ∃ f, fs[i]? = some f := ⟨fs[i], by simp [hil]⟩
    have hnd' := List.nodup_cons.1 hnd
    have hstay : (f.atEnd = true ∨ c.cur.1.jd < f.cur.1.jd) → ∀ p, pickStep fs cur i p = .ok fs cur p := by
      intro h p
      unfold pickStep
      simp only [hc, hf]
      rcases h with h | h
      · simp [h]
      · by_cases he : f.atEnd = true
        · simp [he]
        · have h1 : ¬ f.cur.1.jd = c.cur.1.jd := by omega
          have h2 : ¬ f.cur.1.jd < c.cur.1.jd := by omega
          simp [he, h1, h2]
    by_cases he : f.atEnd = true
    · obtain ⟨m, g, h1, h2, h3, h4⟩ := ih cur c hc hce (fun j hj => his j (by simp [hj])) hnd'.2
      refine ⟨m, g, fun p => ?_, h2, h3, ?_⟩
      · rw [pickLoop, hstay (.inl he)]; exact h1 p
      · intro j hj k hk hke
        rcases List.mem_cons.1 hj with rfl | hj
        · exact h4 _ (by simp) k hk hke
        · rcases List.mem_cons.1 hj with rfl | hj
          · rw [hf] at hk; injection hk with hk; subst hk; simp [he] at hke
          · exact h4 j (by simp [hj]) k hk hke
    · have he' : f.atEnd = false := by simpa using he
      have hne : f.cur.1.jd ≠ c.cur.1.jd := hdist i cur f c hic hf hc he' hce
      by_cases hlt : f.cur.1.jd < c.cur.1.jd
      · obtain ⟨m, g, h1, h2, h3, h4⟩ := ih i f hf he' (fun j hj => ⟨(his j (by simp [hj])).1, by
          rintro rfl; exact hnd'.1 hj⟩) hnd'.2
        refine ⟨m, g, fun p => ?_, h2, h3, ?_⟩
        · rw [pickLoop]
          have : pickStep fs cur i p = .ok fs i p := by
            unfold pickStep
            simp [hc, hf, he', hne, hlt]
          rw [this]; exact h1 p
        · intro j hj k hk hke
          rcases List.mem_cons.1 hj with rfl | hj
          · rw [hc] at hk; injection hk with hk; subst hk
            have := h4 i (by simp) f hf he'
            omega
          · exact h4 j hj k hk hke
      · obtain ⟨m, g, h1, h2, h3, h4⟩ := ih cur c hc hce (fun j hj => his j (by simp [hj])) hnd'.2
        refine ⟨m, g, fun p => ?_, h2, h3, ?_⟩
        · rw [pickLoop, hstay (.inr (by omega))]; exact h1 p
        · intro j hj k hk hke
          rcases List.mem_cons.1 hj with rfl | hj
          · exact h4 _ (by simp) k hk hke
          · rcases List.mem_cons.1 hj with rfl | hj
            · rw [hf] at hk; injection hk with hk; subst hk
              have := h4 cur (by simp) c hc hce
              omega
            · exact h4 j (by simp [hj]) k hk hke

theorem pickLoop_allEnd {α} (fs : List (FileState α)) (h : ∀ f ∈ fs, f.atEnd = true) (cur : Nat) (p : Rat)
    (hc : cur < fs.length) : ∀ is : List Nat, (∀ i ∈ is, i < fs.length) → pickLoop fs cur p is = .ok fs cur p := by
  intro is
  induction is with
  | nil => intro _; rfl
  | cons i is ih =>
    intro his
    have hi := his i (by simp)
    have : pickStep fs cur i p = .ok fs cur p := by
      unfold pickStep
      have h1 : fs[cur]? = some fs[cur] := by simp [hc]
      have h2 : fs[i]? = some fs[i] := by simp [hi]
      have h3 := h fs[i] (List.getElem_mem hi)
      simp [h1, h2, h3]
    rw [pickLoop, this]
    exact ih fun j hj => his j (by simp [hj])

/-- Invariant for merging. -/
structure Merge {α} (fs : List (FileState α)) : Prop where
  clean : ∀ f ∈ fs, Clean f
  days : ∀ (i j : Nat) (f g : FileState α), i ≠ j → fs[i]? = some f → fs[j]? = some g → ∀ a ∈ todo f, ∀ b ∈ todo g, a.1.jd ≠ b.1.jd
  sorted : ∀ f ∈ fs, (todo f).Pairwise fun a b => a.1.jd ≤ b.1.jd
  /-- file 0 has the last day -/
  last : ∃ f, fs[0]? = some f ∧ ∀ (i : Nat) (g : FileState α), i ≠ 0 → fs[i]? = some g → ∀ b ∈ todo g, ∃ a ∈ todo f, b.1.jd < a.1.jd

theorem advance_clean {α} {f : FileState α} (hc : Clean f) (he : f.atEnd = false) :
    ∃ f', (∀ b, advance b f = .ok f') ∧ Clean f' ∧ todo f = f.cur :: todo f' := by
  obtain ⟨ho, hr⟩ := hc he
  obtain ⟨c, e, o, rest⟩ := f
  dsimp only at ho hr he
  subst ho; subst he
  cases rest with
  | nil => exact ⟨⟨c, true, false, []⟩, fun b => rfl, fun h => by simp at h, by simp [todo, pool]⟩
  | cons x rest =>
    obtain ⟨t, d, rfl⟩ := hr x (by simp)
    refine ⟨⟨(t, d), false, true, rest⟩, fun b => rfl, fun _ => ⟨rfl, fun y hy => hr y (by simp [hy])⟩, ?_⟩
    simp [todo, pool]

theorem todo_head {α} {f : FileState α} (he : f.atEnd = false) : f.cur ∈ todo f := by
  simp [todo, he, pool]

theorem flat_set {α} : ∀ (fs : List (FileState α)) (i : Nat) (f f' : FileState α), fs[i]? = some f →
    todo f = f.cur :: todo f' → ((fs.flatMap todo).Perm (f.cur :: (fs.set i f').flatMap todo)) := by
  intro fs
  induction fs with
  | nil => intro i f f' h; simp at h
  | cons g fs ih =>
    intro i f f' h ht
    cases i with
    | zero => simp at h; subst h; simp [List.flatMap_cons, ht]
    | succ i =>
      have := ih i f f' (by simpa using h) ht
      simp only [List.flatMap_cons, List.set_cons_succ]
      exact (List.Perm.append_left _ this).trans List.perm_middle

theorem mem_todo_set {α} {fs : List (FileState α)} {m : Nat} {f f' : FileState α} (hf : fs[m]? = some f)
    (ht : todo f = f.cur :: todo f') {i : Nat} {g : FileState α} (h : (fs.set m f')[i]? = some g) :
    ∃ g0, fs[i]? = some g0 ∧ (todo g).Sublist (todo g0) ∧ (i ≠ m → g = g0) := by
  by_cases hi : i = m
  · subst hi
    rw [List.getElem?_set_self'] at h
    rw [hf] at h
    simp at h
    subst h
    exact ⟨f, hf, by rw [ht]; exact List.sublist_cons_self _ _, by simp⟩
  · rw [List.getElem?_set_ne (by omega)] at h
    exact ⟨g, h, List.Sublist.refl _, fun _ => rfl⟩

theorem yields_merge {α} (start : Rat) : ∀ (n : Nat) (fs : List (FileState α)), (fs.flatMap todo).length = n →
    Merge fs → ∃ L, Yields start fs L ∧ L.Perm (fs.flatMap todo) ∧ L.Pairwise (fun a b => a.1.jd ≤ b.1.jd) := by
  intro n
  induction n with
  | zero =>
    intro fs hn hm
    obtain ⟨f0, h0, _⟩ := hm.last
    have hlen : 0 < fs.length := by
      rcases fs with _ | ⟨f, fs⟩
      · simp at h0
      · simp
    have hnil : fs.flatMap todo = [] := List.length_eq_zero_iff.1 hn
    have hall : ∀ f ∈ fs, f.atEnd = true := by
      intro f hf
      by_contra he
      have := todo_head (f := f) (by simpa using he)
      have h2 : f.cur ∈ fs.flatMap todo := List.mem_flatMap.2 ⟨f, hf, this⟩
      rw [hnil] at h2; simp at h2
    refine ⟨[], .done (cur := 0) (fun p => ?_) h0 (hall f0 (List.mem_of_getElem? h0)), by rw [hnil], by simp⟩
    exact pickLoop_allEnd fs hall 0 p hlen _ fun i hi => by
      rw [List.mem_range'_1] at hi; omega
  | succ n ih =>
    intro fs hn hm
    obtain ⟨f0, h0, hlast⟩ := hm.last
    have hlen : 0 < fs.length := by
      rcases fs with _ | ⟨f, fs⟩
      · simp at h0
      · simp
    have h0e : f0.atEnd = false := by
      by_contra he
      have he : f0.atEnd = true := by simpa using he
      have ht : todo f0 = [] := by simp [todo, he]
      have : ∃ x, x ∈ fs.flatMap todo := by
        rcases h : fs.flatMap todo with _ | ⟨x, l⟩
        · rw [h] at hn; simp at hn
        · exact ⟨x, by simp⟩
      obtain ⟨x, hx⟩ := this
      obtain ⟨g, hg, hx⟩ := List.mem_flatMap.1 hx
      obtain ⟨i, hi⟩ := List.mem_iff_getElem?.1 hg
      by_cases h : i = 0
      · subst h; rw [h0] at hi; injection hi with hi; subst hi; rw [ht] at hx; simp at hx
      · obtain ⟨a, ha, _⟩ := hlast i g h hi x hx
        rw [ht] at ha; simp at ha
    obtain ⟨m, f, hp, hf, hfe, hmin⟩ := pickLoop_min fs 0 (fun i j f g hij hf hg hfe hge =>
        hm.days i j f g hij hf hg _ (todo_head hfe) _ (todo_head hge))
      (List.range' 1 (fs.length - 1)) 0 f0 h0 h0e
      (fun i hi => by rw [List.mem_range'_1] at hi; omega) (List.nodup_range')
    have hmin' : ∀ (i : Nat) (g : FileState α), fs[i]? = some g → g.atEnd = false → f.cur.1.jd ≤ g.cur.1.jd := by
      intro i g hg
      refine hmin i ?_ g hg
      have : i < fs.length := by
        by_contra hc
        rw [List.getElem?_eq_none (by omega)] at hg; simp at hg
      rcases Nat.eq_zero_or_pos i with rfl | hi
      · simp
      · rw [List.mem_cons, List.mem_range'_1]; omega
    obtain ⟨f', ha, hc', ht⟩ := advance_clean (hm.clean f (List.mem_of_getElem? hf)) hfe
    have hperm := flat_set fs m f f' hf ht
    have hm' : Merge (fs.set m f') := by
      refine ⟨?_, ?_, ?_, ?_⟩
      · intro g hg
        rcases List.mem_or_eq_of_mem_set hg with hg | rfl
        · exact hm.clean g hg
        · exact hc'
      · intro i j g k hij hg hk a hga b hkb
        obtain ⟨g0, hg0, hgs, _⟩ := mem_todo_set hf ht hg
        obtain ⟨k0, hk0, hks, _⟩ := mem_todo_set hf ht hk
        exact hm.days i j g0 k0 hij hg0 hk0 a (hgs.subset hga) b (hks.subset hkb)
      · intro g hg
        obtain ⟨i, hi⟩ := List.mem_iff_getElem?.1 hg
        obtain ⟨g0, hg0, hgs, _⟩ := mem_todo_set hf ht hi
        exact (hm.sorted g0 (List.mem_of_getElem? hg0)).sublist hgs
      · by_cases h : m = 0
        · subst h
          rw [h0] at hf; injection hf with hf; subst hf
          refine ⟨f', by rw [List.getElem?_set_self']; simp [h0], ?_⟩
          intro i g hi hg b hb
          rw [List.getElem?_set_ne (by omega)] at hg
          obtain ⟨a, haf, hab⟩ := hlast i g hi hg b hb
          rw [ht] at haf
          rcases List.mem_cons.1 haf with rfl | haf
          · -- the record just taken is the minimum
            have hge : g.atEnd = false := by
              by_contra hc
              have hc : g.atEnd = true := by simpa using hc
              simp [todo, hc] at hb
            have h1 := hmin' i g hg hge
            have h2 : g.cur.1.jd ≤ b.1.jd := by
              have hs := hm.sorted g (List.mem_of_getElem? hg)
              simp only [todo, hge, pool] at hs hb
              rcases List.mem_cons.1 hb with rfl | hb
              · exact le_refl _
              · exact (List.pairwise_cons.1 hs).1 b hb
            omega
          · exact ⟨a, haf, hab⟩
        · refine ⟨f0, by rw [List.getElem?_set_ne (by omega)]; exact h0, ?_⟩
          intro i g hi hg b hb
          obtain ⟨g0, hg0, hgs, _⟩ := mem_todo_set hf ht hg
          exact hlast i g0 hi hg0 b (hgs.subset hb)
    obtain ⟨L, hy, hL, hs⟩ := ih (fs.set m f') (by
      have := hperm.length_eq
      rw [hn, List.length_cons] at this
      omega) hm'
    refine ⟨f.cur :: L, .next (cur := m) hp hf hfe (ha true) (fun _ => ha false) hy,
      (List.Perm.cons _ hL).trans hperm.symm, ?_⟩
    refine List.pairwise_cons.2 ⟨?_, hs⟩
    intro b hb
    have hb := (hperm.symm.subset (List.mem_cons_of_mem _ (hL.subset hb)))
    obtain ⟨g, hg, hbg⟩ := List.mem_flatMap.1 hb
    obtain ⟨i, hi⟩ := List.mem_iff_getElem?.1 hg
    have hge : g.atEnd = false := by
      by_contra hc
      have hc : g.atEnd = true := by simpa using hc
      simp [todo, hc] at hbg
    have h1 := hmin' i g hi hge
    have h2 : g.cur.1.jd ≤ b.1.jd := by
      have hs := hm.sorted g hg
      simp only [todo, hge, pool] at hs hbg
      rcases List.mem_cons.1 hbg with rfl | hb
      · exact le_refl _
      · exact (List.pairwise_cons.1 hs).1 b hb
    omega

theorem set_merge {α} {fs : List (FileState α)} {cur : Nat} {f f' : FileState α} (hf : fs[cur]? = some f)
    (ht : todo f = f.cur :: todo f') :
    ((∀ (i j : Nat) (f g : FileState α), i ≠ j → fs[i]? = some f → fs[j]? = some g →
      ∀ a ∈ todo f, ∀ b ∈ todo g, a.1.jd ≠ b.1.jd) →
     ∀ (i j : Nat) (g k : FileState α), i ≠ j → (fs.set cur f')[i]? = some g → (fs.set cur f')[j]? = some k →
      ∀ a ∈ todo g, ∀ b ∈ todo k, a.1.jd ≠ b.1.jd) ∧
    ((∀ f ∈ fs, Ordered (todo f)) → ∀ g ∈ fs.set cur f', Ordered (todo g)) ∧
    ((∀ f ∈ fs, Clean f) → Clean f' → ∀ g ∈ fs.set cur f', Clean g) := by
  refine ⟨?_, ?_, ?_⟩
  · intro hdays i j g k hij hg hk a hga b hkb
    obtain ⟨g0, hg0, hgs, _⟩ := mem_todo_set hf ht hg
    obtain ⟨k0, hk0, hks, _⟩ := mem_todo_set hf ht hk
    exact hdays i j g0 k0 hij hg0 hk0 a (hgs.subset hga) b (hks.subset hkb)
  · intro h g hg
    obtain ⟨i, hi⟩ := List.mem_iff_getElem?.1 hg
    obtain ⟨g0, hg0, hgs, _⟩ := mem_todo_set hf ht hi
    exact (h g0 (List.mem_of_getElem? hg0)).sublist hgs
  · intro h hc g hg
    rcases List.mem_or_eq_of_mem_set hg with hg | rfl
    · exact h g hg
    · exact hc

/-- Everything yielded is a record to do. -/
theorem yields_mem {α} {start : Rat} {fs : List (FileState α)} {L : List (Time × α)} (hy : Yields start fs L) :
    (∀ f ∈ fs, Clean f) → ∀ x ∈ L, x ∈ fs.flatMap todo := by
  induction hy with
  | done => intro _ x hx; simp at hx
  | @next fs cur f f' L h1 h2 h3 h4 h5 h6 ih =>
    intro hc x hx
    obtain ⟨f'', ha, hc', ht⟩ := advance_clean (hc f (List.mem_of_getElem? h2)) h3
    rw [ha true] at h4; injection h4 with h4; subst h4
    have hp := flat_set fs cur f f'' h2 ht
    apply hp.symm.subset
    rcases List.mem_cons.1 hx with rfl | hx
    · simp
    · exact List.mem_cons_of_mem _ (ih ((set_merge h2 ht).2.2 hc hc') x hx)

theorem ordered_yields {α} {start : Rat} {fs : List (FileState α)} {L : List (Time × α)}
    (hy : Yields start fs L) : L.Pairwise (fun a b => a.1.jd ≤ b.1.jd) →
    (∀ x ∈ L, ∀ y ∈ L, x.1.jd < y.1.jd → x.1.jt + tick ≤ y.1.jt) →
    (∀ (i j : Nat) (f g : FileState α), i ≠ j → fs[i]? = some f → fs[j]? = some g →
      ∀ a ∈ todo f, ∀ b ∈ todo g, a.1.jd ≠ b.1.jd) →
    (∀ f ∈ fs, Clean f) → (∀ f ∈ fs, Ordered (todo f)) → Ordered L := by
  induction hy with
  | done => intros; exact List.Pairwise.nil
  | @next fs cur f f' L h1 h2 h3 h4 h5 h6 ih =>
    intro hs hjt hdays hc ho
    obtain ⟨f'', ha, hc', ht⟩ := advance_clean (hc f (List.mem_of_getElem? h2)) h3
    rw [ha true] at h4; injection h4 with h4; subst h4
    have hset := set_merge h2 ht
    refine List.pairwise_cons.2 ⟨?_, ih (List.pairwise_cons.1 hs).2
      (fun x hx y hy => hjt x (by simp [hx]) y (by simp [hy])) (hset.1 hdays) (hset.2.2 hc hc') (hset.2.1 ho)⟩
    intro b hb
    have hle := (List.pairwise_cons.1 hs).1 b hb
    by_cases hlt : f.cur.1.jd < b.1.jd
    · exact hjt _ (by simp) b (by simp [hb]) hlt
    · have heq : f.cur.1.jd = b.1.jd := by omega
      have hbm := yields_mem h6 (hset.2.2 hc hc') b hb
      obtain ⟨g, hg, hbg⟩ := List.mem_flatMap.1 hbm
      obtain ⟨i, hi⟩ := List.mem_iff_getElem?.1 hg
      by_cases hic : i = cur
      · subst hic
        rw [List.getElem?_set_self', h2] at hi
        simp at hi; subst hi
        have := ho f (List.mem_of_getElem? h2)
        rw [ht] at this
        exact (List.pairwise_cons.1 this).1 b hbg
      · rw [List.getElem?_set_ne (by omega)] at hi
        exact absurd heq (hdays cur i f g (by omega) h2 hi _ (todo_head h3) b hbg)

theorem ordered_of_merge {α} {start : Rat} {fs : List (FileState α)} {L : List (Time × α)}
    (hy : Yields start fs L) (hs : L.Pairwise (fun a b => a.1.jd ≤ b.1.jd))
    (hjt : ∀ x ∈ L, ∀ y ∈ L, x.1.jd < y.1.jd → x.1.jt + tick ≤ y.1.jt) (hm : Merge fs)
    (ho : ∀ f ∈ fs, Ordered (todo f)) : Ordered L :=
  ordered_yields hy hs hjt hm.days hm.clean ho

/-- Several data files, each ordered by time, whose days are disjoint, the first file having the
last day: the run is over the merged records, in order of time, each record exactly once. -/
theorem merge_run {α} (w : Window) (now : Time) (files : List ((Time × α) × List (Time × α)))
    (hord : ∀ f ∈ files, Ordered (f.1 :: f.2))
    (hdays : ∀ (i j : Nat) (f g : (Time × α) × List (Time × α)), i ≠ j → files[i]? = some f → files[j]? = some g →
      ∀ a ∈ f.1 :: f.2, ∀ b ∈ g.1 :: g.2, a.1.jd ≠ b.1.jd)
    (hjt : ∀ f ∈ files, ∀ g ∈ files, ∀ a ∈ f.1 :: f.2, ∀ b ∈ g.1 :: g.2,
      a.1.jd < b.1.jd → a.1.jt + tick ≤ b.1.jt)
    (hlast : ∃ f, files[0]? = some f ∧ ∀ (i : Nat) (g : (Time × α) × List (Time × α)), i ≠ 0 → files[i]? = some g →
      ∀ b ∈ g.1 :: g.2, ∃ a ∈ f.1 :: f.2, b.1.jd < a.1.jd)
    (hw : w.start ≤ w.stop) (hd : tick ≤ w.initialDeltat / 24)
    (hpos : ∀ f ∈ files, ∀ a ∈ f.1 :: f.2, w.initialDeltat / 24 ≤ a.1.jt)
    (hfirst : ∃ f ∈ files, f.1.1.jd ≤ w.startJd) :
    ∃ merged : List (Time × α), merged.Perm (files.flatMap fun f => f.1 :: f.2) ∧ Ordered merged ∧
      Delivers (batchRun w now (files.map fun f => fileOf f.1 f.2)).1 (w.initialDeltat / 24)
        (merged.filter (inWindow w)) ∧
      (batchRun w now (files.map fun f => fileOf f.1 f.2)).2 =
        .code (if ∃ x ∈ merged, w.stop < x.1.jt then 1 else 2) := by
  have htk : (0 : Rat) < tick := by unfold tick; norm_num
  have htodo : ∀ f : (Time × α) × List (Time × α), todo (fileOf f.1 f.2) = f.1 :: f.2 := by
    intro f
    simp only [todo, fileOf, openFile, pool, Bool.false_eq_true, if_false, List.filterMap_map]
    congr 1
    induction f.2 with
    | nil => rfl
    | cons x l ih => simp only [List.filterMap_cons, Function.comp, ih]
  have hget : ∀ (i : Nat) (g : FileState α), (files.map fun f => fileOf f.1 f.2)[i]? = some g →
      ∃ f, files[i]? = some f ∧ g = fileOf f.1 f.2 := by
    intro i g h
    rw [List.getElem?_map] at h
    rcases hf : files[i]? with _ | f
    · rw [hf] at h; simp at h
    · rw [hf] at h; simp at h; exact ⟨f, rfl, h.symm⟩
  have hmerge : Merge (files.map fun f => fileOf f.1 f.2) := by
    refine ⟨?_, ?_, ?_, ?_⟩
    · intro g hg
      obtain ⟨f, _, rfl⟩ := List.mem_map.1 hg
      intro _
      refine ⟨rfl, fun x hx => ?_⟩
      obtain ⟨y, _, rfl⟩ := List.mem_map.1 hx
      exact ⟨_, _, rfl⟩
    · intro i j f g hij hf hg a ha b hb
      obtain ⟨f, hf', rfl⟩ := hget i f hf
      obtain ⟨g, hg', rfl⟩ := hget j g hg
      rw [htodo] at ha hb
      exact hdays i j f g hij hf' hg' a ha b hb
    · intro g hg
      obtain ⟨f, hf, rfl⟩ := List.mem_map.1 hg
      rw [htodo]
      refine (hord f hf).imp_of_mem ?_
      intro a b ha hb hab
      by_contra hc
      have := hjt f hf f hf b hb a ha (by omega)
      linarith
    · obtain ⟨f, hf, h⟩ := hlast
      refine ⟨fileOf f.1 f.2, by rw [List.getElem?_map, hf]; rfl, ?_⟩
      intro i g hi hg b hb
      obtain ⟨g, hg', rfl⟩ := hget i g hg
      rw [htodo] at hb ⊢
      exact h i g hi hg' b hb
  obtain ⟨L, hy, hL, hs⟩ := yields_merge w.start _ _ rfl hmerge
  have hflat : (files.map fun f => fileOf f.1 f.2).flatMap todo = files.flatMap fun f => f.1 :: f.2 := by
    rw [List.flatMap_map]
    congr 1
    funext f; exact htodo f
  rw [hflat] at hL
  have hmem : ∀ x ∈ L, ∃ f ∈ files, x ∈ f.1 :: f.2 := by
    intro x hx
    exact List.mem_flatMap.1 (hL.subset hx)
  have hOrd : Ordered L := by
    -- days are sorted; equal days come from one file
    exact ordered_of_merge hy hs (fun x hx y hy' hlt => by
      obtain ⟨f, hf, hx⟩ := hmem x hx
      obtain ⟨g, hg, hy'⟩ := hmem y hy'
      exact hjt f hf g hg x hx y hy' hlt) hmerge (fun f hf => by
        obtain ⟨f, hf', rfl⟩ := List.mem_map.1 hf
        rw [htodo]; exact hord f hf')
  refine ⟨L, hL, hOrd, ?_⟩
  have hchk : dataCheckStart w (files.map fun f => fileOf f.1 f.2) = true := by
    obtain ⟨f, hf, h⟩ := hfirst
    unfold dataCheckStart
    rw [List.any_eq_true]
    exact ⟨_, List.mem_map.2 ⟨f, hf, rfl⟩, decide_eq_true h⟩
  unfold batchRun
  rw [if_pos hchk]
  have hlen : L.length < unread (files.map fun f => fileOf f.1 f.2) + (files.map fun f => fileOf f.1 f.2).length + 1 := by
    rw [hL.length_eq]
    clear * -
    induction files with
    | nil => simp [unread]
    | cons f fs ih =>
      simp only [unread, List.map_cons, List.sum_cons, List.length_cons, List.flatMap_cons, List.length_append,
        fileOf, openFile, List.length_map] at ih ⊢
      omega
  have := runLoop_yields w now hy hOrd hw hd (fun x hx => by
      obtain ⟨f, hf, hx⟩ := hmem x hx
      exact hpos f hf x hx) (w.initialDeltat / 24) (-1)
    (n := unread (files.map fun f => fileOf f.1 f.2) + (files.map fun f => fileOf f.1 f.2).length + 2)
    (Nat.lt_succ_of_lt hlen) hlen
  simp only [this]
  refine ⟨expected_delivers _ 0 _, ?_⟩
  rw [endCode_eq]

end Verif.TimeLoop
