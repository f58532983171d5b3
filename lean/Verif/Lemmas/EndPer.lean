import Verif.Spec.EndPer
import Verif.Lemmas.Calendar
import Mathlib.Tactic.Linarith
import Mathlib.Tactic.NormNum
/-
Helper lemmas for C20.
-/
namespace Verif.EndPer
open Verif.Calendar

theorem Before.irrefl (a : Date) : ¬ Before a a := by
  unfold Before; omega

theorem Before.asymm {a b : Date} (h : Before a b) : ¬ Before b a := by
  unfold Before at *; omega

theorem jd_sep30 {y : Int} (h : 1583 ≤ y) :
    jd ⟨y, 9, 30⟩ = 365 * y + y / 4 - y / 100 + y / 400 + 1721333 := by
  unfold jd
  rw [julday_eq _ _ _ (by omega)]
  simp only [show ((9 : Int) > 2) by omega, if_true, Option.getD_some]
  rw [if_pos (by omega)]
  omega

theorem leap_ge {y : Int} (h : 1582 < y) : isleap y = 0 ∨ isleap y = 1 := by
  rw [isleap_eq h]; split <;> simp

theorem sep30_diff {y : Int} (h : 1584 ≤ y) :
    jd ⟨y, 9, 30⟩ - jd ⟨y - 1, 9, 30⟩ = 365 + isleap y := by
  have hl := leap_facts y
  rw [jd_sep30 (by omega), jd_sep30 (by omega), isleap_eq (by omega)]
  generalize (y - 1) / 4 = a4 at *
  generalize (y - 1) / 100 = a100 at *
  generalize (y - 1) / 400 = a400 at *
  generalize y / 4 = b4 at *
  generalize y / 100 = b100 at *
  generalize y / 400 = b400 at *
  split <;> rename_i hc
  · have := hl.2.1 hc (by omega); omega
  · have := hl.2.2.2 hc (by omega); omega

theorem valid_sep30 {y : Int} (h : 1 ≤ y) : Valid ⟨y, 9, 30⟩ := by
  unfold Valid monthLength; simp; omega

theorem jd_inj {a b : Date} (ha : Valid a) (hb : Valid b) (h : jd a = jd b) : a = b := by
  rcases Before.trichotomy a b with h1 | h1 | h1
  · have := jd_mono ha hb h1; omega
  · exact h1
  · have := jd_mono hb ha h1; omega

/-- The water-year day count reaches the length of the calendar year exactly on 30 September. -/
theorem water_last {d : Date} (h : Valid d) (hy : 1584 ≤ d.year) {w : Int}
    (hw : julian .water d = some w) : w = 365 + isleap d.year ↔ d.month = 9 ∧ d.day = 30 := by
  rw [julian_eq .water h (by omega)] at hw
  have hw := Option.some.inj hw
  have hd := sep30_diff hy
  obtain ⟨y, m, dd⟩ := d
  simp only [refDate] at *
  have hv := valid_sep30 (y := y) (by omega)
  split at hw <;> rename_i hm
  · constructor
    · intro hw'
      have h1 := (jd_year_bounds h).2
      have h2 : jd ⟨y + 1, 1, 1⟩ = jd ⟨y, 9, 30⟩ + 93 := by
        rw [jd_sep30 (by omega), jd, jd_newyear (by omega), Option.getD_some]
        omega
      have := leap_ge (y := y) (by omega)
      omega
    · intro h1; omega
  · constructor
    · intro hw'
      have h1 : jd ⟨y, m, dd⟩ = jd ⟨y, 9, 30⟩ := by omega
      have h2 := jd_inj h hv h1
      simp only [Date.mk.injEq] at h2
      exact h2.2
    · rintro ⟨h1, h2⟩
      rw [h1, h2] at hw
      omega

/-! ### the time value -/

theorem jd_bound {d : Date} (h : Valid d) (hy : d.year ≤ 9999) : 0 < jd d ∧ jd d ≤ 5400000 := by
  refine ⟨jd_pos h, ?_⟩
  obtain ⟨y, m, dd⟩ := d
  have h1 := (jd_year_bounds h).2
  have h2 := jd_newyear_mono (y := y + 1) (z := 10000) (by have := h.1; simp only at this; omega)
    (by simp only at hy; omega)
  have h3 : jd ⟨10000, 1, 1⟩ = 5373485 := by decide
  omega

theorem jt_bounds {rd : Rat → Rat} (hrd : Double rd) {n : Now} (hn : n.Ok) :
    ∃ t, jt rd n = some t ∧ (jd n.date : Rat) + n.secs / 86400 - 1 / 100000000 ≤ t ∧
      t ≤ (jd n.date : Rat) + n.secs / 86400 + 1 / 100000000 ∧ (n.secs = 0 → t = jd n.date) := by
  obtain ⟨hb1, hb2⟩ := jd_bound hn.date hn.year.2
  unfold jt
  rw [julday_jd hn.date]
  refine ⟨_, rfl, ?_⟩
  obtain ⟨hh1, hh2⟩ := hn.hour
  obtain ⟨hm1, hm2⟩ := hn.min
  obtain ⟨hs1, hs2⟩ := hn.sec
  have es : ((n.secs : Int) : Rat) = 3600 * n.hour + 60 * n.min + n.sec := by
    unfold Now.secs; push_cast; rfl
  rw [es]
  have hz : n.secs = 0 → n.hour = 0 ∧ n.min = 0 ∧ n.sec = 0 := by
    unfold Now.secs; omega
  generalize jd n.date = j at *
  generalize n.hour = h at *
  generalize n.min = m at *
  generalize n.sec = s at *
  have qj1 : (0 : Rat) ≤ j := by exact_mod_cast hb1.le
  have qj2 : (j : Rat) ≤ 5400000 := by exact_mod_cast hb2
  have qh1 : (0 : Rat) ≤ h := by exact_mod_cast hh1
  have qh2 : (h : Rat) ≤ 23 := by exact_mod_cast hh2
  have qm1 : (0 : Rat) ≤ m := by exact_mod_cast hm1
  have qm2 : (m : Rat) ≤ 59 := by exact_mod_cast hm2
  have qs1 : (0 : Rat) ≤ s := by exact_mod_cast hs1
  have qs2 : (s : Rat) ≤ 59 := by exact_mod_cast hs2
  have e1 := hrd.err ((h : Rat) / 24) (by linarith) (by linarith)
  have e2 := hrd.err ((j : Rat) + rd ((h : Rat) / 24)) (by linarith) (by linarith)
  have e3 := hrd.err ((m : Rat) / 1440) (by linarith) (by linarith)
  have e4 := hrd.err (rd ((j : Rat) + rd ((h : Rat) / 24)) + rd ((m : Rat) / 1440)) (by linarith)
    (by linarith)
  have e5 := hrd.err ((s : Rat) / 86400) (by linarith) (by linarith)
  have e6 := hrd.err (rd (rd ((j : Rat) + rd ((h : Rat) / 24)) + rd ((m : Rat) / 1440)) +
    rd ((s : Rat) / 86400)) (by linarith) (by linarith)
  refine ⟨by linarith, by linarith, ?_⟩
  intro h0
  obtain ⟨rfl, rfl, rfl⟩ := hz h0
  have z : rd 0 = 0 := by have := hrd.int 0 (by omega) (by omega); exact_mod_cast this
  have zj : rd (j : Rat) = j := hrd.int j (by omega) (by omega)
  simp [z, zj]

theorem secs_bounds {n : Now} (hn : n.Ok) : 0 ≤ n.secs ∧ n.secs ≤ 86399 := by
  obtain ⟨hh1, hh2⟩ := hn.hour
  obtain ⟨hm1, hm2⟩ := hn.min
  obtain ⟨hs1, hs2⟩ := hn.sec
  unfold Now.secs; omega

theorem secs_inj {a b : Now} (ha : a.Ok) (hb : b.Ok) (hd : a.date = b.date) (h : a.secs = b.secs) :
    a = b := by
  obtain ⟨ah1, ah2⟩ := ha.hour
  obtain ⟨am1, am2⟩ := ha.min
  obtain ⟨as1, as2⟩ := ha.sec
  obtain ⟨bh1, bh2⟩ := hb.hour
  obtain ⟨bm1, bm2⟩ := hb.min
  obtain ⟨bs1, bs2⟩ := hb.sec
  unfold Now.secs at h
  obtain ⟨ad, ah, am, as⟩ := a
  obtain ⟨bd, bh, bm, bs⟩ := b
  simp only [Now.mk.injEq] at *
  refine ⟨hd, ?_⟩; omega

/-- Comparing time values is comparing times. -/
theorem jt_le_iff {rd : Rat → Rat} (hrd : Double rd) {a b : Now} (ha : a.Ok) (hb : b.Ok) {x y : Rat}
    (hx : jt rd a = some x) (hy : jt rd b = some y) : x ≤ y ↔ NotAfter a b := by
  obtain ⟨t, h1, l1, u1, -⟩ := jt_bounds hrd ha
  obtain ⟨t', h2, l2, u2, -⟩ := jt_bounds hrd hb
  rw [hx] at h1; rw [hy] at h2
  obtain rfl := Option.some.inj h1
  obtain rfl := Option.some.inj h2
  have sa := secs_bounds ha
  have sb := secs_bounds hb
  have lt_of : jd a.date < jd b.date ∨ (jd a.date = jd b.date ∧ a.secs < b.secs) → x < y := by
    intro hc
    have : 86400 * jd a.date + a.secs + 1 ≤ 86400 * jd b.date + b.secs := by omega
    have q : (86400 * jd a.date + a.secs + 1 : Rat) ≤ 86400 * jd b.date + b.secs := by exact_mod_cast this
    linarith
  have gt_of : jd b.date < jd a.date ∨ (jd a.date = jd b.date ∧ b.secs < a.secs) → y < x := by
    intro hc
    have : 86400 * jd b.date + b.secs + 1 ≤ 86400 * jd a.date + a.secs := by omega
    have q : (86400 * jd b.date + b.secs + 1 : Rat) ≤ 86400 * jd a.date + a.secs := by exact_mod_cast this
    linarith
  unfold NotAfter
  rcases Before.trichotomy a.date b.date with h | h | h
  · have := jd_mono ha.date hb.date h
    exact ⟨fun _ => Or.inl h, fun _ => (lt_of (Or.inl this)).le⟩
  · rcases lt_trichotomy a.secs b.secs with hs | hs | hs
    · exact ⟨fun _ => Or.inr ⟨h, hs.le⟩, fun _ => (lt_of (Or.inr ⟨by rw [h], hs⟩)).le⟩
    · have e := secs_inj ha hb h hs
      subst e
      rw [hx] at hy
      obtain rfl := Option.some.inj hy
      exact ⟨fun _ => Or.inr ⟨h, hs.le⟩, fun _ => le_refl _⟩
    · have := gt_of (Or.inr ⟨by rw [h], hs⟩)
      constructor
      · intro hle; linarith
      · rintro (hc | ⟨-, hc⟩)
        · rw [h] at hc; exact absurd hc (Before.irrefl _)
        · omega
  · have := gt_of (Or.inl (jd_mono hb.date ha.date h))
    constructor
    · intro hle; linarith
    · rintro (hc | ⟨hc, -⟩)
      · exact absurd hc (Before.asymm h)
      · rw [hc] at h; exact absurd h (Before.irrefl _)

theorem floor_eq {x : Rat} {j : Int} (h1 : (j : Rat) ≤ x) (h2 : x < j + 1) : x.floor = j := by
  have a : j ≤ x.floor := Rat.le_floor_iff.2 h1
  have b : x.floor < j + 1 := Rat.floor_lt_iff.2 (by push_cast; exact h2)
  omega

theorem dint_eq {x : Rat} {j : Int} (h0 : 0 ≤ j) (h1 : (j : Rat) ≤ x) (h2 : x < j + 1) : dint x = j := by
  have : (0 : Rat) ≤ j := by exact_mod_cast h0
  unfold dint
  rw [if_neg (by linarith)]
  exact floor_eq h1 h2

theorem dint_jt {rd : Rat → Rat} (hrd : Double rd) {n : Now} (hn : n.Ok) {t : Rat}
    (ht : jt rd n = some t) : dint t = jd n.date ∧ (jd n.date : Rat) ≤ t ∧ t < jd n.date + 1 := by
  obtain ⟨t', h1, l, u, z⟩ := jt_bounds hrd hn
  rw [ht] at h1
  obtain rfl := Option.some.inj h1
  have hs := secs_bounds hn
  have hj := jd_bound hn.date hn.year.2
  have q2 : (n.secs : Rat) ≤ 86399 := by exact_mod_cast hs.2
  have a : (jd n.date : Rat) ≤ t := by
    by_cases h0 : n.secs = 0
    · rw [z h0]
    · have : 1 ≤ n.secs := by omega
      have : (1 : Rat) ≤ n.secs := by exact_mod_cast this
      linarith
  have b : t < jd n.date + 1 := by linarith
  exact ⟨dint_eq hj.1.le a b, a, b⟩

/-- For regular steps the test of `io.F` recognises the last step of the day. -/
theorem endOfDay_iff {rd : Rat → Rat} (hrd : Double rd) {n : Now} (hn : n.Ok) {t dt : Rat}
    (ht : jt rd n = some t) {s : Int} (hs : 1 ≤ s) (hdiv : s ∣ 86400) (hdt : Step dt s)
    (hoff : 5 * (n.secs % s) ≤ 4 * s) : endOfDay rd dt t = true ↔ LastOfDay s n := by
  obtain ⟨t', h1, l, u, -⟩ := jt_bounds hrd hn
  rw [ht] at h1
  obtain rfl := Option.some.inj h1
  have hsb := secs_bounds hn
  have hj := jd_bound hn.date hn.year.2
  have hdt' := dint_jt hrd hn ht
  have hs2 : s ≤ 86400 := Int.le_of_dvd (by omega) hdiv
  obtain ⟨d1, d2⟩ := hdt
  have qs1 : (1 : Rat) ≤ s := by exact_mod_cast hs
  have qs2 : (s : Rat) ≤ 86400 := by exact_mod_cast hs2
  have qc1 : (0 : Rat) ≤ n.secs := by exact_mod_cast hsb.1
  have qc2 : (n.secs : Rat) ≤ 86399 := by exact_mod_cast hsb.2
  have qj1 : (0 : Rat) ≤ jd n.date := by exact_mod_cast hj.1.le
  have qj2 : (jd n.date : Rat) ≤ 5400000 := by exact_mod_cast hj.2
  have e1 := hrd.err (c11 * dt) (by unfold c11; linarith) (by unfold c11; linarith)
  have e2 := hrd.err (rd (c11 * dt) / 24) (by unfold c11 at *; linarith) (by unfold c11 at *; linarith)
  have e3 := hrd.err (rd (rd (c11 * dt) / 24) + t) (by unfold c11 at *; linarith)
    (by unfold c11 at *; linarith)
  unfold endOfDay LastOfDay
  unfold c11 at *
  generalize rd (rd (rd (9227469 / 8388608 * dt) / 24) + t) = sc at *
  generalize rd (rd (9227469 / 8388608 * dt) / 24) = r2 at *
  generalize rd (9227469 / 8388608 * dt) = r1 at *
  -- the remainder of the day after this step is at most zero or at least a fifth of a step
  have key : 86400 ≤ n.secs + s ∨ 5 * (n.secs + s) + s ≤ 5 * 86400 := by
    obtain ⟨q, hq⟩ := hdiv
    by_cases hl : 86400 ≤ n.secs + s
    · exact Or.inl hl
    · right
      have hm := Int.mul_ediv_add_emod n.secs s
      have h3 : s * (n.secs / s) + n.secs % s + s < s * q := by omega
      have hr0 := Int.emod_nonneg n.secs (by omega : s ≠ 0)
      have h5 : n.secs / s + 1 < q := by
        by_contra hc
        have : s * q ≤ s * (n.secs / s + 1) := Int.mul_le_mul_of_nonneg_left (by omega) (by omega)
        rw [Int.mul_add] at this
        omega
      have : s * (n.secs / s + 2) ≤ s * q := Int.mul_le_mul_of_nonneg_left (by omega) (by omega)
      rw [Int.mul_add] at this
      omega
  by_cases h24 : dt ≥ 24
  · rw [if_pos h24]
    refine ⟨fun _ => ?_, fun _ => rfl⟩
    have : (86399 : Rat) < s := by linarith
    have : (86399 : Int) < s := by exact_mod_cast this
    omega
  · rw [if_neg h24]
    constructor
    · intro h
      rcases key with hk | hk
      · exact hk
      · exfalso
        have q : 5 * ((n.secs : Rat) + s) + s ≤ 5 * 86400 := by exact_mod_cast hk
        have hd : dint sc = jd n.date := dint_eq hj.1.le (by linarith) (by linarith)
        rw [hd, hdt'.1] at h
        simp at h
    · intro h
      have q : (86400 : Rat) ≤ n.secs + s := by exact_mod_cast h
      have h2 : (jd n.date + 1 : Rat) ≤ sc := by linarith
      have : jd n.date + 1 ≤ dint sc := by
        unfold dint
        rw [if_neg (by linarith)]
        exact Rat.le_floor_iff.2 (by push_cast; exact h2)
      rw [if_pos (by rw [hdt'.1]; omega)]

/-! ### the state -/

/-- Month lengths with `f` days in February. -/
def mlist (f : Int) : List Int := [31, f, 31, 30, 31, 30, 31, 31, 30, 31, 30, 31]

/-- The year and month lengths are those of year `y`. -/
structure Inv (y : Int) (st : State) : Prop where
  days : st.yrdays = 365 + isleap y
  months : st.modays = mlist (28 + isleap y)

theorem mlist_get {d : Date} (h : Valid d) (hy : 1584 ≤ d.year) :
    (mlist (28 + isleap d.year))[(d.month - 1).toNat]? = some (monthLength d.year d.month) := by
  obtain ⟨y, m, dd⟩ := d
  obtain ⟨-, h2, h3, -, -, -⟩ := h
  simp only at h2 h3 hy ⊢
  have he := isleap_eq (y := y) (by omega)
  rcases month_cases h2 h3 with h | h | h | h | h | h | h | h | h | h | h | h <;> subst h <;>
    simp [mlist, monthLength]
  rw [he]; split <;> rfl

theorem leapUpdate_inv {st : State} {cday y : Int} (hy : 1582 < y) (hm : ∃ f, st.modays = mlist f)
    (h : st.step1 = true ∨ cday = 1 ∨ Inv y st) : Inv y (leapUpdate st cday y) := by
  obtain ⟨f, hf⟩ := hm
  unfold leapUpdate
  by_cases hc : st.step1 = true ∨ cday = 1
  · rw [if_pos hc]
    rcases leap_ge hy with hl | hl
    · rw [if_neg (by omega)]
      constructor <;> simp [hl, hf, mlist]
    · rw [if_pos hl]
      constructor <;> simp [hl, hf, mlist]
  · rw [if_neg hc]
    rcases h with h | h | h
    · exact absurd (Or.inl h) hc
    · exact absurd (Or.inr h) hc
    · exact h

theorem leapUpdate_step1 (st : State) (cday y : Int) : (leapUpdate st cday y).step1 = true →
    st.step1 = true ∧ leapUpdate st cday y = st := by
  unfold leapUpdate
  split
  · split <;> simp
  · simp

theorem decode_compose {st : State} {jday endjday : Rat} {w m d : Int} {dy : Bool} {f : Flags}
    {i : Ints} (h : setFlags st jday endjday w m d dy = some (f, i)) : decode (compose i) = f := by
  unfold setFlags at h
  dsimp only at h
  split at h
  · cases h; decide
  · split at h
    · rename_i hc
      rw [hc.2] at h
      cases h; decide
    · split at h
      · cases h
      · split at h
        · cases h
        · split at h
          · rename_i hc
            rw [hc.2] at h
            cases h; decide
          · cases dy <;> cases h <;> decide

theorem iorun_right {rd : Rat → Rat} (hrd : Double rd) {fin n : Now} (hf : fin.Ok) (hn : n.Ok)
    {e dt : Rat} (he : jt rd fin = some e) {st : State} (hm : ∃ f, st.modays = mlist f)
    (h : st.step1 = true ∨ isFirstDay .calendar n.date ∨ Inv n.date.year st) :
    ∃ t st' o, jt rd n = some t ∧ iorun rd e dt n st = some (st', o) ∧ Inv n.date.year st' ∧
      Right fin (endOfDay rd dt t = true) n o.flags ∧ decode o.endper = o.flags := by
  obtain ⟨t, ht, -⟩ := jt_bounds hrd hn
  obtain ⟨w, hw, -⟩ := julian_range .water hn.date (by have := hn.year.1; omega)
  obtain ⟨c, hc, -⟩ := julian_range .calendar hn.date (by have := hn.year.1; omega)
  have hone := julian_one_iff .calendar hn.date (by have := hn.year.1; omega)
  rw [hc] at hone
  have hinv : Inv n.date.year (leapUpdate st c n.date.year) := by
    apply leapUpdate_inv (by have := hn.year.1; omega) hm
    rcases h with h | h | h
    · exact Or.inl h
    · exact Or.inr (Or.inl (Option.some.inj (hone.2 h)))
    · exact Or.inr (Or.inr h)
  have hle := jt_le_iff hrd hf hn he ht
  have hwl := water_last hn.date hn.year.1 hw
  have hml := mlist_get hn.date hn.year.1
  have hmon : ¬ n.date.month < 1 := by have := hn.date.2.1; omega
  refine ⟨t, ?_⟩
  unfold iorun
  rw [hw, hc, ht]
  dsimp only
  generalize leapUpdate st c n.date.year = st' at *
  generalize endOfDay rd dt t = dy at *
  have key : ∃ f i, setFlags st' t e w n.date.month n.date.day dy = some (f, i) ∧
      Right fin (dy = true) n f := by
    unfold setFlags
    dsimp only
    by_cases h1 : t ≥ e
    · rw [if_pos h1]
      refine ⟨_, _, rfl, ?_⟩
      have := hle.1 h1
      simp [Right, this]
    · rw [if_neg h1]
      have hna : ¬ NotAfter fin n := fun hx => h1 (hle.2 hx)
      by_cases h2 : w = st'.yrdays ∧ dy = true
      · rw [if_pos h2]
        rw [hinv.days] at h2
        have h3 := hwl.1 h2.1
        refine ⟨_, _, rfl, ?_⟩
        simp [Right, hna, h2.2, h3, monthLength]
      · rw [if_neg h2, if_neg hmon, hinv.months, hml]
        rw [hinv.days] at h2
        dsimp only
        have h4 : ¬ (dy = true ∧ n.date.month = 9 ∧ n.date.day = 30) := by
          rintro ⟨a, b⟩
          exact h2 ⟨hwl.2 b, a⟩
        by_cases h3 : n.date.day = monthLength n.date.year n.date.month ∧ dy = true
        · rw [if_pos h3]
          refine ⟨_, _, rfl, ?_⟩
          simp only [Right, hna, false_or]
          refine ⟨by simp, by simp, by simp, by simp [h3.2, h3.1], by simpa using h4⟩
        · rw [if_neg h3]
          refine ⟨_, _, rfl, ?_⟩
          simp only [Right, hna, false_or]
          refine ⟨by simp, by simp, by simp, ?_, by simpa using h4⟩
          constructor
          · intro h; cases h
          · rintro ⟨a, b⟩; exact absurd ⟨b, a⟩ h3
  obtain ⟨f, i, hfi, hr⟩ := key
  rw [hfi]
  exact ⟨st', ⟨f, compose i⟩, rfl, rfl, hinv, hr, decode_compose hfi⟩

theorem next_newyear (d : Date) (h : Valid d) :
    isFirstDay .calendar (next d) ∨ (next d).year = d.year := by
  unfold next isFirstDay
  have := h.2.2.1
  split_ifs <;> simp_all

theorem steps_right {rd : Rat → Rat} (hrd : Double rd) {fin : Now} (hf : fin.Ok) {e : Rat}
    (he : jt rd fin = some e) (recs : List (Now × Rat)) (hok : ∀ r ∈ recs, r.1.Ok) (hd : Daily recs)
    (st : State) (hm : ∃ f, st.modays = mlist f)
    (h : ∀ r ∈ recs.head?, st.step1 = true ∨ isFirstDay .calendar r.1.date ∨ Inv r.1.date.year st) :
    ∃ outs, steps rd e st recs = some outs ∧
      List.Forall₂ (fun r o => ∃ t, jt rd r.1 = some t ∧
        Right fin (endOfDay rd r.2 t = true) r.1 o.flags ∧ decode o.endper = o.flags) recs outs := by
  induction recs generalizing st with
  | nil => exact ⟨[], rfl, List.Forall₂.nil⟩
  | cons r rest ih =>
    obtain ⟨n, dt⟩ := r
    have hn : n.Ok := hok (n, dt) (by simp)
    obtain ⟨t, st', o, h1, h2, h3, h4, h5⟩ :=
      iorun_right hrd hf hn (dt := dt) he hm (h (n, dt) (by simp))
    obtain ⟨outs, g1, g2⟩ := ih (fun r hr => hok r (by simp [hr]))
      (by cases rest with
          | nil => trivial
          | cons => exact hd.2)
      st' ⟨_, h3.months⟩ (by
        intro r hr
        right
        cases rest with
        | nil => simp at hr
        | cons b rest' =>
          simp at hr
          subst hr
          rcases hd.1 with hx | hx
          · rw [hx]; exact Or.inr h3
          · rw [hx]
            rcases next_newyear n.date hn.date with hy | hy
            · exact Or.inl hy
            · rw [hy]; exact Or.inr h3)
    refine ⟨o :: outs, ?_, List.Forall₂.cons ⟨t, h1, h4, h5⟩ g2⟩
    simp [steps, h2, g1]

theorem forall2_imp {α β : Type} {P Q : α → β → Prop} {l : List α} {m : List β}
    (h : List.Forall₂ P l m) (hi : ∀ a ∈ l, ∀ b, P a b → Q a b) : List.Forall₂ Q l m := by
  induction h with
  | nil => exact List.Forall₂.nil
  | cons hab _ ih =>
    exact List.Forall₂.cons (hi _ (by simp) _ hab) (ih fun a ha => hi a (by simp [ha]))

theorem runIo_right {rd : Rat → Rat} (hrd : Double rd) (yrdays0 : Int) {fin : Now} (hf : fin.Ok)
    (recs : List (Now × Rat)) (hok : ∀ r ∈ recs, r.1.Ok) (hd : Daily recs) :
    ∃ outs, runIo rd yrdays0 fin recs = some outs ∧
      List.Forall₂ (fun r o => ∃ t, jt rd r.1 = some t ∧
        Right fin (endOfDay rd r.2 t = true) r.1 o.flags ∧ decode o.endper = o.flags) recs outs := by
  obtain ⟨e, he, -⟩ := jt_bounds hrd hf
  unfold runIo
  rw [he]
  exact steps_right hrd hf he recs hok hd _ ⟨28, rfl⟩ (fun _ _ => Or.inl rfl)

theorem Right.congr {fin : Now} {p q : Prop} {n : Now} {f : Flags} (h : p ↔ q) (hr : Right fin p n f) :
    Right fin q n f := by
  have : p = q := propext h
  exact this ▸ hr

end Verif.EndPer
