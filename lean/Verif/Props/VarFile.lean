import Verif.Lemmas.VarSafe
/-
C16: saving and restoring the state of a run.  A value of type `V` is what the C library makes of a text
for each type (`conv`), `show_` and `showF` are the texts it prints for variables and times.
-/
namespace Verif.VarFile
open Verif.CText Verif.CFile
open Verif.ParFile (Ty unlines Fits IsHeader intText)

/-- C16: the file written for `s` restores in `t` the step count, every variable that is declared alike (variables
that are not declared are skipped), and nothing else changes.  Not restored: the time (`C16_now_violated`), and
the length of the step is what was printed with six decimals. -/
theorem C16_restore_partial {V : Type} {conv : Ty → List Char → V} {show_ : Ty → V → List Char} {showF : V → List Char}
    {s t : St V} (hf : Fitting showF s) (hv : ∀ v ∈ s.vars, Savable conv show_ v) (hnd : (s.vars.map Var.key).Nodup)
    (hdn : (t.dims.map (·.1)).Nodup) (hd : SameDims s.dims t)
    (hdecl : ∀ v ∈ s.vars, ∀ w, entry t.vars v.key = some w → Same v w ∧ w.vals.length = w.size) :
    ∃ t', read conv t (some (save show_ showF s)) = .ret 0 t' ∧ t'.nstep = s.nstep ∧
      t'.delta = conv .double (showF s.delta ++ ['\n']) ∧ t'.next = t'.delta ∧ t'.dims = t.dims ∧
      (∀ v ∈ s.vars, entry t.vars v.key ≠ none → look t'.vars v.key = some v.vals) ∧
      ∀ n, (∀ v ∈ s.vars, v.key ≠ n) → entry t'.vars n = entry t.vars n := by
  obtain ⟨f1, f2, f3, f4⟩ := fuel_lines show_ showF s
  rw [read_begun conv show_ t hf, dimsLines, dimLoop_ok (begun conv showF s t) _ f3 s.dims _ _ (Or.inr rfl) f1 hf.dims ((matched_iff hdn).1 hd)]
  simp only [Out.bind]
  obtain ⟨m, hm⟩ : ∃ m, (save show_ showF s).length + 1 = s.vars.length + (m + 1) :=
    ⟨(save show_ showF s).length - s.vars.length, by omega⟩
  obtain ⟨pre, vars, g1, g2, g3, g4, g5⟩ := varLoop_prefix (conv := conv) (show_ := show_)
    (fuel := (save show_ showF s).length + 1) (m := m + 1) [] s.vars [] (begun conv showF s t) (by simp)
    (by simp) (fun v h => ⟨hv v h, f4 v h⟩) hnd hdecl
  rw [← hm] at g3
  simp only [List.nil_append, List.append_nil] at g3
  refine ⟨{ begun conv showF s t with vars := vars }, ?_, rfl, rfl, rfl, rfl, g4, g5⟩
  rw [g3, varLoop]
  simp only [Bool.false_eq_true, if_false]
  rw [toVar_end _ pre g1 _ g2]
  rfl

/-- C16: a variable declared with another size or type ends the reading with code 1.  The variables before it are
restored, it and all others are unchanged. -/
theorem C16_mismatch {V : Type} {conv : Ty → List Char → V} {show_ : Ty → V → List Char} {showF : V → List Char}
    {s t : St V} (hf : Fitting showF s) {a b : List (Var V)} {v w : Var V} (hs : s.vars = a ++ v :: b)
    (ha : ∀ x ∈ a, Savable conv show_ x) (hv : Savable conv show_ v) (hnd : (s.vars.map Var.key).Nodup)
    (hdn : (t.dims.map (·.1)).Nodup) (hd : SameDims s.dims t)
    (hdecl : ∀ x ∈ a, ∀ w, entry t.vars x.key = some w → Same x w ∧ w.vals.length = w.size)
    (hw : entry t.vars v.key = some w) (hdims : v.priv = true ∨ w.dims = v.dims)
    (hne : ¬ (w.size = v.size ∧ w.type = v.type)) :
    ∃ t', read conv t (some (save show_ showF s)) = .ret 1 t' ∧ t'.nstep = s.nstep ∧
      (∀ x ∈ a, entry t.vars x.key ≠ none → look t'.vars x.key = some x.vals) ∧
      ∀ n, (∀ x ∈ a, x.key ≠ n) → look t'.vars n = look t.vars n := by
  obtain ⟨f1, f2, f3, f4⟩ := fuel_lines show_ showF s
  rw [hs, List.map_append, List.nodup_append] at hnd
  obtain ⟨hna, -, hdis⟩ := hnd
  have hav : ∀ x ∈ a, x.key ≠ v.key := fun x hx => hdis x.key (List.mem_map.2 ⟨x, hx, rfl⟩) v.key (by simp)
  have hlen : a.length + 1 ≤ s.vars.length := by rw [hs]; simp only [List.length_append, List.length_cons]; omega
  rw [read_begun conv show_ t hf, dimsLines, dimLoop_ok (begun conv showF s t) _ f3 s.dims _ _ (Or.inr rfl) f1 hf.dims ((matched_iff hdn).1 hd)]
  simp only [Out.bind]
  obtain ⟨m, hm⟩ : ∃ m, (save show_ showF s).length + 1 = a.length + (m + 1) :=
    ⟨(save show_ showF s).length - a.length, by omega⟩
  have f4' : ∀ x ∈ a, (body show_ x).length < (save show_ showF s).length + 1 := fun x hx => f4 x (by rw [hs]; simp [hx])
  generalize (save show_ showF s).length + 1 = fuel at *
  obtain ⟨pre, vars, g1, g2, g3, g4, g5⟩ := varLoop_prefix (conv := conv) (show_ := show_)
    (fuel := fuel) (m := m + 1) (varLines show_ v ++ b.flatMap (varLines show_)) a [] (begun conv showF s t)
    (by simp) (by simp only [List.length_nil]; omega) (fun x h => ⟨ha x h, f4' x h⟩) hna hdecl
  have e : s.vars.flatMap (varLines show_) = [] ++ (a.flatMap (varLines show_) ++ (varLines show_ v ++ b.flatMap (varLines show_))) := by
    rw [hs]; simp
  rw [← hm] at g3
  rw [e, g3, varLoop_step hv.key g1 g2]
  have hwv : find vars v.key = some w := by
    rw [g5 v.key hav]; exact hw
  simp only [hwv]
  obtain ⟨vs, k1, k2⟩ := readVar_wrong hv (s := { begun conv showF s t with vars := vars }) hwv hdims hne (b.flatMap (varLines show_))
  rw [k1]
  refine ⟨_, rfl, rfl, ?_, ?_⟩
  · intro x hx h
    exact (k2 x.key).trans (g4 x hx h)
  · intro n hn
    refine (k2 n).trans ?_
    show look vars n = _
    rw [look, entry_find, g5 n hn]; rfl

/-- C16: a dimension in the file that is not declared, or declared with another size, ends the reading with code 0;
the step count is set but no variable. -/
theorem C16_dims {V : Type} (conv : Ty → List Char → V) (show_ : Ty → V → List Char) {showF : V → List Char}
    {s t : St V} (hf : Fitting showF s) (hdn : (t.dims.map (·.1)).Nodup) (hd : ¬ SameDims s.dims t) :
    ∃ t', read conv t (some (save show_ showF s)) = .ret 0 t' ∧ t'.nstep = s.nstep ∧ t'.vars = t.vars := by
  have hsplit : ∀ l : List (List Char × Int), ¬ Matched l t → ∃ a d b, l = a ++ d :: b ∧ Matched a t ∧ dimVal t.dims d.1 ≠ some d.2 := by
    intro l
    induction l with
    | nil => intro h; exact absurd (by intro d hd; simp at hd) h
    | cons c l ih =>
      intro h
      by_cases hc : dimVal t.dims c.1 = some c.2
      · obtain ⟨a, d, b, rfl, h2, h3⟩ := ih (fun hl => h (by
          intro x hx
          simp only [List.mem_cons] at hx
          rcases hx with rfl | hx
          · exact hc
          · exact hl x hx))
        refine ⟨c :: a, d, b, rfl, ?_, h3⟩
        intro x hx
        simp only [List.mem_cons] at hx
        rcases hx with rfl | hx
        · exact hc
        · exact h2 x hx
      · exact ⟨[], c, l, rfl, by intro x hx; simp at hx, hc⟩
  obtain ⟨a, d, b, h1, h2, h3⟩ := hsplit s.dims (fun h => hd ((matched_iff hdn).2 h))
  obtain ⟨f1, f2, f3, f4⟩ := fuel_lines show_ showF s
  refine ⟨begun conv showF s t, ?_, rfl, rfl⟩
  rw [read_begun conv show_ t hf]
  have e : ["** Dimensions **".toList] ++ dimsLines s.dims ++ varLabel :: s.vars.flatMap (varLines show_) =
      ["** Dimensions **".toList] ++ (a.flatMap fun d => ["####".toList, d.1, intText d.2]) ++
        "####".toList :: d.1 :: intText d.2 :: (dimsLines b ++ varLabel :: s.vars.flatMap (varLines show_)) := by
    rw [dimsLines, dimsLines, h1]
    generalize "####".toList = x
    generalize "** Dimensions **".toList = y
    simp
  rw [e, dimLoop_wrong (begun conv showF s t) _ f3 h3 a _ _ (Or.inr rfl)
    (by have : s.dims.length = a.length + (b.length + 1) := by rw [h1]; simp
        omega)
    (fun x hx => hf.dims x (by
      rw [h1]
      simp only [List.mem_append, List.mem_singleton] at hx
      rcases hx with hx | rfl <;> simp [*])) h2]
  rfl

/-- C16: whatever the text, reading ends with code 0 or 1, or meets one of two kinds of undefined behaviour (a
first line that is too short, more dimensions than the variable has); values are never written outside the
storage of a variable whose storage is as large as its size. -/
theorem C16_any_text {V : Type} (conv : Ty → List Char → V) (t : St V) (text : List Char) :
    (∃ e t', read conv t (some text) = .ret e t') ∨
    (∃ f, read conv t (some text) = .bad f ∧
      (f = .stale ∨ f = .dimen ∨ f = .storage ∧ ¬ ∀ w ∈ t.vars, w.size ≤ w.vals.length)) := by
  have h := read_in conv t text
  cases hr : read conv t (some text) with
  | ok a => rw [hr] at h; exact h.elim
  | ret e s => exact Or.inl ⟨e, s, rfl⟩
  | bad f =>
    rw [hr] at h
    refine Or.inr ⟨f, rfl, ?_⟩
    cases f with
    | stale => exact Or.inl rfl
    | dimen => exact Or.inr (Or.inl rfl)
    | storage => exact Or.inr (Or.inr ⟨rfl, fun hx => h.2 hx rfl⟩)
    | fuel => exact absurd rfl h.1

/-- C16: whatever the text, dimensions stay, variables keep their keys, dimensions, sizes, types and storage, and a
variable whose key does not occur in the text is unchanged. -/
theorem C16_untouched {V : Type} (conv : Ty → List Char → V) (t : St V) (text : List Char) {e : Nat} {t' : St V}
    (h : read conv t (some text) = .ret e t') :
    t'.dims = t.dims ∧
    t'.vars.map (fun v => (v.key, v.dims, v.priv, v.size, v.type, v.vals.length)) =
      t.vars.map (fun v => (v.key, v.dims, v.priv, v.size, v.type, v.vals.length)) ∧
    ∀ n, ¬ n <:+: text → entry t'.vars n = entry t.vars n := by
  have hk := read_in conv t text
  rw [h] at hk
  exact ⟨hk.dims, hk.shapes, hk.other⟩

/-- C16: without a file nothing changes and the code is 0. -/
theorem C16_no_file {V : Type} (conv : Ty → List Char → V) (t : St V) : read conv t none = .ret 0 t := rfl

/-- C16 fails: no text restores the time. -/
theorem C16_now_violated {V : Type} (conv : Ty → List Char → V) (t : St V) (text : List Char) {e : Nat} {t' : St V}
    (h : read conv t (some text) = .ret e t') : t'.now = t.now := by
  have hk := read_in conv t text
  rw [h] at hk
  exact hk.now

/-- C16 fails: after an information line of 79 to 88 characters the step count is read behind the end of a line. -/
theorem C16_info_violated {V : Type} (conv : Ty → List Char → V) (show_ : Ty → V → List Char) (showF : V → List Char)
    (s t : St V) (h1 : 79 ≤ (s.info.takeWhile fun c => c ≠ '\n').length)
    (h2 : (s.info.takeWhile fun c => c ≠ '\n').length ≤ 88) :
    read conv t (some (save show_ showF s)) = .bad .stale := by
  rw [save_eq]
  have hn := mem_takeWhile_ne s.info
  revert h1 h2 hn
  generalize (s.info.takeWhile fun c => c ≠ '\n') = l
  intro h1 h2 hn
  rw [read]
  simp only []
  generalize (unlines _).length + 1 = fuel
  rw [ParFile.unlines_cons, openText, must, fgets_long hn h1, show ParFile.MAXINFOLEN - 1 = 79 from rfl]
  simp only [Out.bind]
  rw [must, fgets_line (num := ParFile.MAXINFOLEN) (fun h => hn (List.mem_of_mem_drop h))
    (by simp only [List.length_drop]; show _ + 2 ≤ 80; omega)]
  simp only []
  rw [dropTo, if_pos (by simp only [List.length_append, List.length_drop, List.length_cons, List.length_nil]; omega)]

/-- C16 fails: a public variable without dimensions cannot be restored; it ends the reading with code 1. -/
theorem C16_zero_dims_violated {V : Type} (conv : Ty → List Char → V) (show_ : Ty → V → List Char) {showF : V → List Char}
    {s t : St V} (hf : Fitting showF s) {v w : Var V} {b : List (Var V)} (hs : s.vars = v :: b)
    (hk : '\n' ∉ v.key ∧ v.key.length ≤ 48) (hp : v.priv = false) (hz : v.ndimen = 0)
    (hdn : (t.dims.map (·.1)).Nodup) (hd : SameDims s.dims t) (hw : entry t.vars v.key = some w) :
    ∃ t', read conv t (some (save show_ showF s)) = .ret 1 t' ∧ ∀ n, look t'.vars n = look t.vars n := by
  obtain ⟨f1, f2, f3, f4⟩ := fuel_lines show_ showF s
  rw [read_begun conv show_ t hf, dimsLines, dimLoop_ok (begun conv showF s t) _ f3 s.dims _ _ (Or.inr rfl) f1 hf.dims ((matched_iff hdn).1 hd)]
  simp only [Out.bind]
  generalize (save show_ showF s).length + 1 = fuel at *
  obtain ⟨m, rfl⟩ : ∃ m, fuel = m + 1 := ⟨fuel - 1, by omega⟩
  have e : s.vars.flatMap (varLines show_) = [] ++ (varLines show_ v ++ b.flatMap (varLines show_)) := by
    rw [hs]; simp
  rw [e, varLoop_step hk (by simp) (by simp)]
  have hwv : find (begun conv showF s t).vars v.key = some w := hw
  simp only [hwv]
  have hb : body show_ v ++ b.flatMap (varLines show_) = ['0', ' '] ::
      ((v.dims.take v.ndimen.toNat ++ [ParFile.digitsOf v.size ++ [' '], ParFile.digitsOf v.type.code ++ [' ']] ++
        (v.vals.take v.size).map fun x => show_ v.type x ++ [' ']) ++ b.flatMap (varLines show_)) := by
    unfold body declBody
    have h0 : intText 0 = ['0'] := by
      have := intText_nat 0
      rw [show ((0 : Nat) : Int) = 0 from rfl] at this
      rw [this, decimal]; decide
    rw [hp, hz, h0]
    simp
  rw [hb, readVar, must_fits ⟨by decide, by decide⟩]
  have h0 : atoi (['0', ' '] ++ ['\n']) = 0 := by decide
  simp only [Out.bind, h0, if_true]
  refine ⟨_, rfl, fun n => ?_⟩
  simp only [look, entry_find]
  rw [find_update w.key (fun v => { v with ndimen := 0 }) (fun _ => rfl)]
  split
  · rename_i hn
    subst hn
    show Option.map _ (Option.map _ (find t.vars w.key)) = _
    cases find t.vars w.key <;> rfl
  · rfl

/-- C16 fails: a variable whose key has more than 48 characters is not restored, though declared, and the code is 0. -/
theorem C16_key_violated {V : Type} {conv : Ty → List Char → V} {show_ : Ty → V → List Char} {showF : V → List Char}
    {s t : St V} (hf : Fitting showF s) {v : Var V} (hs : s.vars = [v]) (hn : '\n' ∉ v.key) (hk : 49 ≤ v.key.length)
    (hl : v.key.length ≤ 300) (hh : ¬ IsHeader (v.key.drop 49)) (hv : Savable conv show_ { v with key := [] })
    (hdn : (t.dims.map (·.1)).Nodup) (hd : SameDims s.dims t) (hw : entry t.vars (v.key.take 48) = none) :
    ∃ t', read conv t (some (save show_ showF s)) = .ret 0 t' ∧ t'.vars = t.vars := by
  obtain ⟨f1, f2, f3, f4⟩ := fuel_lines show_ showF s
  rw [read_begun conv show_ t hf, dimsLines, dimLoop_ok (begun conv showF s t) _ f3 s.dims _ _ (Or.inr rfl) f1 hf.dims ((matched_iff hdn).1 hd)]
  simp only [Out.bind]
  have hsz : (body show_ v).length + 2 ≤ (save show_ showF s).length := by
    rw [save_eq]
    refine Nat.le_trans ?_ (ParFile.unlines_length _)
    rw [hs]
    simp only [List.length_cons, List.length_append, List.flatMap_cons, List.flatMap_nil, varLines, List.length_nil]
    omega
  obtain ⟨m, hm⟩ : ∃ m, (save show_ showF s).length + 1 = m + 2 := ⟨(save show_ showF s).length - 1, by omega⟩
  refine ⟨begun conv showF s t, ?_, rfl⟩
  rw [hs, List.flatMap_cons, List.flatMap_nil, List.append_nil, varLines, hm, varLoop]
  simp only [Bool.false_eq_true, if_false]
  have h1 := toVar_lines (begun conv showF s t) [] (by simp) (m + 2) (by simp) (v.key :: body show_ v)
  rw [List.nil_append] at h1
  rw [h1]
  simp only [Out.bind]
  rw [must, ParFile.unlines_cons, fgets_long (num := ParFile.MAXKEYLEN) hn hk]
  have e : (v.key.take (ParFile.MAXKEYLEN - 1)).dropLast = v.key.take 48 := by
    rw [List.dropLast_eq_take, List.take_take, List.length_take]
    congr 1
    show min (min 49 v.key.length - 1) 49 = 48
    omega
  simp only [e]
  have h2 : find (begun conv showF s t).vars (v.key.take 48) = none := hw
  simp only [h2]
  rw [varLoop]
  simp only [Bool.false_eq_true, if_false]
  have h3 : v.key.drop (ParFile.MAXKEYLEN - 1) ++ '\n' :: unlines (body show_ v) = unlines (v.key.drop 49 :: body show_ v) := by
    rw [ParFile.unlines_cons]; rfl
  rw [h3, toVar_end _ _ ?_ _ ?_]
  · rfl
  · intro l hl'
    simp only [List.mem_cons] at hl'
    rcases hl' with rfl | hl'
    · exact ⟨⟨fun h => hn (List.mem_of_mem_drop h), by simp only [List.length_drop]; omega⟩, hh⟩
    · exact body_lines hv l hl'
  · simp only [List.length_cons]; omega

namespace Ex

/-- Values are texts; printing gives the text, blanks and newlines are not part of a value. -/
def conv (_ : Ty) (x : List Char) : List Char := x.filter fun c => c ≠ '\n' ∧ c ≠ ' '
def show_ (_ : Ty) (x : List Char) : List Char := x

/-- A public two by one array, a private number, and a variable the reader does not declare. -/
def va : Var (List Char) := ⟨['a'], [['n'], ['m']], false, 2, 2, .double, [['1'], ['2']]⟩
def vb : Var (List Char) := ⟨['b'], [], true, 1, 1, .long, [['3']]⟩
def vz : Var (List Char) := ⟨['z'], [['m']], false, 1, 1, .float, [['9']]⟩
def s : St (List Char) := ⟨"info".toList, 12, ['7'], ['8'], ['8'], [(['n'], 2), (['m'], 1)], [va, vz, vb]⟩
def t : St (List Char) := ⟨[], 0, ['0'], ['0'], ['0'], [(['m'], 1), (['n'], 2)],
  [{ vb with vals := [['0']] }, ⟨['c'], [], true, 1, 1, .long, [['5']]⟩, { va with vals := [['0'], ['0']] }]⟩

theorem dec1 : decimal 1 = ['1'] := by rw [decimal]; decide
theorem dec2 : decimal 2 = ['2'] := by rw [decimal]; decide
theorem dec12 : decimal 12 = ['1', '2'] := by rw [decimal, decimal]; decide

theorem notHead {l : List Char} (h : l.take 4 ≠ ['#', '#', '#', '#']) : ¬ IsHeader l := by
  intro hx; exact h (by have := (ParFile.isHead_iff l).2 hx; simpa [ParFile.isHead] using this)

theorem fitting : Fitting (fun x : List Char => x) s := by
  refine ⟨by decide, ?_, ⟨by decide, by decide⟩, ⟨by decide, by decide⟩, ?_⟩
  · rw [show s.nstep = ((12 : Nat) : Int) from rfl, intText_nat, dec12]; decide
  · intro d hd
    simp only [s, List.mem_cons, List.not_mem_nil, or_false] at hd
    rcases hd with rfl | rfl
    · refine ⟨by decide, by decide, ?_⟩
      show (intText ((2 : Nat) : Int)).length ≤ 254
      rw [intText_nat, dec2]; decide
    · refine ⟨by decide, by decide, ?_⟩
      show (intText ((1 : Nat) : Int)).length ≤ 254
      rw [intText_nat, dec1]; decide

theorem savable : ∀ v ∈ s.vars, Savable conv show_ v := by
  intro v hv
  simp only [s, List.mem_cons, List.not_mem_nil, or_false] at hv
  have d0 : (decimal 0).length ≤ 253 := by rw [decimal]; decide
  have d1 : (decimal 1).length ≤ 253 := by rw [dec1]; decide
  have d2 : (decimal 2).length ≤ 253 := by rw [dec2]; decide
  rcases hv with rfl | rfl | rfl
  · refine ⟨by decide, by decide, ?_, ⟨d2, d2⟩, rfl, ?_, by decide⟩
    · intro d hd
      simp only [va, List.mem_cons, List.not_mem_nil, or_false] at hd
      rcases hd with rfl | rfl <;> exact ⟨by decide, by decide, notHead (by decide)⟩
    · intro x hx
      simp only [va, List.mem_cons, List.not_mem_nil, or_false] at hx
      rcases hx with rfl | rfl <;> exact ⟨⟨by decide, by decide⟩, notHead (by decide)⟩
  · refine ⟨by decide, by decide, ?_, ⟨d1, d1⟩, rfl, ?_, by decide⟩
    · intro d hd
      simp only [vz, List.mem_cons, List.not_mem_nil, or_false] at hd
      rcases hd with rfl; exact ⟨by decide, by decide, notHead (by decide)⟩
    · intro x hx
      simp only [vz, List.mem_cons, List.not_mem_nil, or_false] at hx
      rcases hx with rfl; exact ⟨⟨by decide, by decide⟩, notHead (by decide)⟩
  · refine ⟨by decide, by decide, ?_, ⟨d0, d1⟩, rfl, ?_, by decide⟩
    · intro d hd; simp [vb] at hd
    · intro x hx
      simp only [vb, List.mem_cons, List.not_mem_nil, or_false] at hx
      rcases hx with rfl; exact ⟨⟨by decide, by decide⟩, notHead (by decide)⟩

theorem declared : ∀ v ∈ s.vars, ∀ w, find t.vars v.key = some w → Same v w ∧ w.vals.length = w.size := by
  intro v hv w hw
  simp only [s, List.mem_cons, List.not_mem_nil, or_false] at hv
  rcases hv with rfl | rfl | rfl
  · have : find t.vars va.key = some { va with vals := [['0'], ['0']] } := by decide
    rw [this] at hw; cases hw
    exact ⟨⟨Or.inr rfl, rfl, rfl⟩, rfl⟩
  · have : find t.vars vz.key = none := by decide
    rw [this] at hw; cases hw
  · have : find t.vars vb.key = some { vb with vals := [['0']] } := by decide
    rw [this] at hw; cases hw
    exact ⟨⟨Or.inl rfl, rfl, rfl⟩, rfl⟩

/-- The hypotheses of `C16_restore_partial` hold for a target with its variables in another order, one of them not
in the file, and a file with a variable that is not declared. -/
example : ∃ t', read conv t (some (save show_ (fun x => x) s)) = .ret 0 t' ∧ t'.nstep = 12 ∧ t'.delta = ['8'] ∧
    look t'.vars ['a'] = some [['1'], ['2']] ∧ look t'.vars ['b'] = some [['3']] ∧ look t'.vars ['c'] = some [['5']] ∧
    look t'.vars ['z'] = none := by
  obtain ⟨t', h1, h2, h3, _, _, h5, h6⟩ := C16_restore_partial (show_ := show_) fitting savable (by decide) (by decide) (by unfold SameDims; decide) declared
  refine ⟨t', h1, h2, by rw [h3]; decide, h5 va (by decide) (by decide), h5 vb (by decide) (by decide), ?_, ?_⟩
  · rw [look, h6 _ (by decide)]; decide
  · have h7 := (C16_untouched conv t _ h1).2.1
    have h8 : entry t'.vars ['z'] = none := by
      simp only [entry, List.find?_eq_none, decide_eq_true_eq]
      intro x hx hk
      have h9 : (x.key, x.dims, x.priv, x.size, x.type, x.vals.length) ∈
          t.vars.map (fun v => (v.key, v.dims, v.priv, v.size, v.type, v.vals.length)) := by
        rw [← h7]; exact List.mem_map.2 ⟨x, hx, rfl⟩
      obtain ⟨y, hy, he⟩ := List.mem_map.1 h9
      simp only [Prod.mk.injEq] at he
      rw [hk] at he
      simp only [t, List.mem_cons, List.not_mem_nil, or_false] at hy
      rcases hy with rfl | rfl | rfl <;> exact absurd he.1 (by decide)
    rw [look, h8]; rfl

/-- `C16_now_violated`: the state had time 7, the restored state has time 0. -/
example : ∃ t', read conv t (some (save show_ (fun x => x) s)) = .ret 0 t' ∧ t'.now = ['0'] ∧ s.now = ['7'] := by
  obtain ⟨t', h1, _⟩ := C16_restore_partial (show_ := show_) fitting savable (by decide) (by decide) (by unfold SameDims; decide) declared
  exact ⟨t', h1, C16_now_violated conv t _ h1, rfl⟩

/-- `C16_mismatch`: `z` is restored, then `b` is declared with another type. -/
example : ∃ t', read conv { t with vars := [{ vb with type := .float, vals := [['0']] }] } (some (save show_ (fun x => x) s)) = .ret 1 t' ∧
    look t'.vars ['b'] = some [['0']] := by
  obtain ⟨t', h1, _, _, h4⟩ := C16_mismatch (show_ := show_) (showF := fun x => x) (s := s) (conv := conv)
    (t := { t with vars := [{ vb with type := .float, vals := [['0']] }] }) (a := [va, vz]) (v := vb) (b := []) fitting rfl
    (fun x hx => savable x (by simp only [s, List.mem_cons, List.not_mem_nil, or_false] at hx ⊢; rcases hx with h | h <;> simp [h]))
    (savable vb (by decide)) (by decide) (by decide) (by unfold SameDims; decide)
    (fun x hx w hw => by
      simp only [List.mem_cons, List.not_mem_nil, or_false] at hx
      rcases hx with rfl | rfl <;> (revert hw; simp [entry, va, vz, vb]))
    (w := { vb with type := .float, vals := [['0']] }) (by decide) (Or.inl rfl) (by decide)
  exact ⟨t', h1, by rw [h4 _ (by decide)]; decide⟩

/-- `C16_dims`: one dimension has another size. -/
example : ∃ t', read conv { t with dims := [(['n'], 3), (['m'], 1)] } (some (save show_ (fun x => x) s)) = .ret 0 t' ∧ t'.vars = t.vars := by
  obtain ⟨t', h1, _, h3⟩ := C16_dims conv show_ (t := { t with dims := [(['n'], 3), (['m'], 1)] }) fitting (by decide) (by unfold SameDims; decide)
  exact ⟨t', h1, h3⟩

/-- `C16_info_violated`. -/
example : read conv t (some (save show_ (fun x => x) { s with info := List.replicate 80 'x' })) = .bad .stale :=
  C16_info_violated conv show_ _ _ _ (by decide) (by decide)

/-- `C16_zero_dims_violated`. -/
example : ∃ t', read conv { t with vars := [⟨['q'], [], false, 0, 1, .long, [['0']]⟩] }
    (some (save show_ (fun x => x) { s with vars := [⟨['q'], [], false, 0, 1, .long, [['6']]⟩] })) = .ret 1 t' ∧
    look t'.vars ['q'] = some [['0']] := by
  obtain ⟨t', h1, h2⟩ := C16_zero_dims_violated conv show_ (showF := fun x : List Char => x)
    (s := { s with vars := [⟨['q'], [], false, 0, 1, .long, [['6']]⟩] })
    (t := { t with vars := [⟨['q'], [], false, 0, 1, .long, [['0']]⟩] })
    ⟨fitting.info, fitting.nstep, fitting.now, fitting.delta, fitting.dims⟩ rfl ⟨by decide, by decide⟩ rfl rfl
    (by decide) (by unfold SameDims; decide) (w := ⟨['q'], [], false, 0, 1, .long, [['0']]⟩) (by decide)
  exact ⟨t', h1, by rw [h2]; decide⟩

/-- `C16_key_violated`. -/
example : ∃ t', read conv { t with vars := [⟨List.replicate 49 'k', [], true, 1, 1, .long, [['0']]⟩] }
    (some (save show_ (fun x => x) { s with vars := [⟨List.replicate 49 'k', [], true, 1, 1, .long, [['6']]⟩] })) = .ret 0 t' ∧
    look t'.vars (List.replicate 49 'k') = some [['0']] := by
  obtain ⟨t', h1, h2⟩ := C16_key_violated (conv := conv) (show_ := show_) (showF := fun x : List Char => x)
    (s := { s with vars := [⟨List.replicate 49 'k', [], true, 1, 1, .long, [['6']]⟩] })
    (t := { t with vars := [⟨List.replicate 49 'k', [], true, 1, 1, .long, [['0']]⟩] })
    ⟨fitting.info, fitting.nstep, fitting.now, fitting.delta, fitting.dims⟩ rfl (by decide) (by decide) (by decide)
    (notHead (by decide))
    ⟨by decide, by decide, by simp, ⟨by show (decimal 0).length ≤ 253; rw [decimal]; decide, by show (decimal 1).length ≤ 253; rw [dec1]; decide⟩, rfl,
      by
        intro x hx
        simp only [List.mem_cons, List.not_mem_nil, or_false] at hx
        rcases hx with rfl; exact ⟨⟨by decide, by decide⟩, notHead (by decide)⟩,
      by decide⟩
    (by decide) (by unfold SameDims; decide) (by decide)
  exact ⟨t', h1, by rw [h2]; decide⟩

end Ex

end Verif.VarFile
