import Verif.Lemmas.ParDims
/-
C15, C62, C63: parameter files.  A value of type `V` is what the C library makes of a text for each
type (`conv`), `show_` is the text it prints.
-/
namespace Verif.ParFile
open Verif.CText Verif.CFile

/-! ## C62: reading a parameter file -/

/-- C62: a well-formed file sets the listed parameters to the listed values, in order, and no others. -/
theorem C62_file {V : Type} {conv : Ty → List Char → V} (hc : NewlineOk conv) (dimVal : List Char → Int) {db : Db V}
    (hs : Stored db) {f : File} (hf : f.Good db) :
    ∃ db', rp conv dimVal db (some f.render) 0 = .ret none db' ∧ Stored db' ∧ decls db' = decls db ∧
      ∀ n, look db' n = f.entries.foldl (assign conv) (look db) n := by
  obtain ⟨line, st, h1, h2⟩ := rp_begin conv dimVal db hf.before hf.label (r := f.entries.flatMap Entry.lines)
    (first_fits fun e es' he => entry_hd_fits (hf.entries e (by simp [he]))) (text := f.render) rfl
  have hu : (unlines (f.entries.flatMap Entry.lines)).length ≤ f.render.length := by
    rw [File.render, unlines_append, unlines_cons]
    simp only [List.length_append, List.length_cons]
    omega
  have h3 := begin_length h1
  have h4 := entries_count f.entries
  have h5 := unlines_length (f.entries.flatMap Entry.lines)
  obtain ⟨db', g1, g2, g3, g4⟩ := readLoop_good hc dimVal (fuel := f.render.length + 2) (n := f.render.length + 2) hs hf.entries
    (begin_ready h1) hf.last (by omega) (by omega)
  exact ⟨db', by rw [h2, g4], g1, g2, fun n => congrFun g3 n⟩

/-- C62: files after the first one (`index` not 0) are read without looking for the label: lines before the first
header are skipped. -/
theorem C62_more {V : Type} {conv : Ty → List Char → V} (hc : NewlineOk conv) (dimVal : List Char → Int) {db : Db V}
    (hs : Stored db) {before : List (List Char)} (hb : ∀ l ∈ before, Fits l ∧ ¬ IsHeader l) {es : List Entry}
    (hne : es ≠ []) (hg : ∀ e ∈ es, e.Good db) (hl : EndsListed es) {index : Nat} (hi : index ≠ 0) :
    ∃ db', rp conv dimVal db (some (unlines (before ++ es.flatMap Entry.lines))) index = .ret none db' ∧ Stored db' ∧
      decls db' = decls db ∧ ∀ n, look db' n = es.foldl (assign conv) (look db) n := by
  have hu := unlines_length (before ++ es.flatMap Entry.lines)
  have h4 := entries_count es
  obtain ⟨e, es', rfl⟩ := List.exists_cons_of_ne_nil hne
  obtain ⟨line, st, h1, h2, h3⟩ : ∃ line st, Ready line st (e :: es') ∧
      st.rest.length ≤ (unlines (before ++ (e :: es').flatMap Entry.lines)).length ∧
      fgets MAXLNLEN (openText (unlines (before ++ (e :: es').flatMap Entry.lines))) = some (line, st) := by
    cases before with
    | nil =>
      refine ⟨_, _, .here e es', ?_, ?_⟩
      · simp only [List.nil_append, List.flatMap_cons, Entry.lines, List.cons_append]
        rw [unlines_cons]
        simp only [List.length_append, List.length_cons]
        omega
      · simp only [List.nil_append, List.flatMap_cons, Entry.lines, List.cons_append, openText]
        exact fgets_fits (entry_hd_fits (hg e (by simp))) _ _
    | cons l ls =>
      refine ⟨l ++ ['\n'], _, .later _ ls e es' (isHead_false (hb l (by simp)).2) (fun x hx => hb x (by simp [hx])), ?_, ?_⟩
      · rw [List.cons_append, unlines_cons]
        simp only [List.length_append, List.length_cons]
        omega
      · rw [List.cons_append]
        exact fgets_fits (hb l (by simp)).1 _ _
  simp only [List.length_append] at hu
  obtain ⟨db', g1, g2, g3, g4⟩ := readLoop_good hc dimVal
    (fuel := (unlines (before ++ (e :: es').flatMap Entry.lines)).length + 2)
    (n := (unlines (before ++ (e :: es').flatMap Entry.lines)).length + 2) hs hg h1 hl (by omega) (by omega)
  refine ⟨db', ?_, g1, g2, fun n => congrFun g3 n⟩
  unfold rp
  simp only []
  rw [h3]
  simp only [hi, if_false]
  exact g4

/-- C62: a parameter with fewer or more values than its size is an error.  The parameters before it have their new
values, it has the values up to its size, all others are unchanged. -/
theorem C62_count {V : Type} {conv : Ty → List Char → V} (hc : NewlineOk conv) (dimVal : List Char → Int) {db : Db V}
    (hs : Stored db) {before : List (List Char)} (hb : ∀ l ∈ before, Fits l ∧ ¬ "** Parameters **".toList <+: l)
    {label : List Char} (hlab : Fits ("** Parameters **".toList ++ label)) {es : List Entry} (hg : ∀ e ∈ es, e.Good db)
    {b : Block} (hbo : b.Ok) (hd : ∃ p, find db b.name = some p ∧ b.For p) (ht : total b.sec ≠ b.size)
    {tl : List Entry} (htl : ∀ e ∈ tl, Fits e.hd) :
    ∃ db' old, rp conv dimVal db (some (File.render ⟨before, label, es ++ .listed b :: tl⟩)) 0 =
        .ret (some (if total b.sec < b.size then .few else .many)) db' ∧ Stored db' ∧ decls db' = decls db ∧
      es.foldl (assign conv) (look db) b.name = some old ∧
      ∀ n, look db' n = if n = b.name then some ((expand (conv b.type) b.sec ++ old.drop (total b.sec)).take b.size)
        else es.foldl (assign conv) (look db) n := by
  obtain ⟨line, st, h1, h2⟩ := rp_begin conv dimVal db hb hlab (r := (es ++ .listed b :: tl).flatMap Entry.lines)
    (first_fits (by
      intro e es' he
      cases es with
      | nil => simp only [List.nil_append, List.cons.injEq] at he; rw [← he.1]; exact hbo.hd
      | cons x xs =>
        simp only [List.cons_append, List.cons.injEq] at he
        rw [← he.1]; exact entry_hd_fits (hg x (by simp))))
    (text := File.render ⟨before, label, es ++ .listed b :: tl⟩) rfl
  have hu : (unlines ((es ++ .listed b :: tl).flatMap Entry.lines)).length ≤
      (File.render ⟨before, label, es ++ .listed b :: tl⟩).length := by
    rw [File.render, unlines_append, unlines_cons]
    simp only [List.length_append, List.length_cons]
    omega
  have h3 := begin_length h1
  have h4 := entries_count (es ++ .listed b :: tl)
  have h5 := unlines_length ((es ++ .listed b :: tl).flatMap Entry.lines)
  simp only [List.length_append, List.length_cons] at h4
  obtain ⟨db', old, g1, g2, g3, g4, g5⟩ := readLoop_wrong hc dimVal
    (fuel := (File.render ⟨before, label, es ++ .listed b :: tl⟩).length + 2)
    (n := (File.render ⟨before, label, es ++ .listed b :: tl⟩).length + 2) hs hg hbo hd ht
    (fun e es' he => htl e (by simp [he])) (begin_ready h1) (by omega) (by omega)
  exact ⟨db', old, by rw [h2, g5], g1, g2, g3, g4⟩

/-- C62: whatever the text, reading ends: an error is returned or not, or one of five kinds of undefined behaviour
is met (a description before the first value, a name that is too long, an empty name line, the file closed
twice, a dimension that does not exist); values are never stored outside the storage of a parameter if the
storage is as large as its size and (for the old format) its first dimension. -/
theorem C62_any_text {V : Type} (conv : Ty → List Char → V) (dimVal : List Char → Int) (db : Db V) (text : List Char)
    (index : Nat) :
    (∃ e db', rp conv dimVal db (some text) index = .ret e db') ∨
    (∃ f, rp conv dimVal db (some text) index = .bad f ∧
      (f = .desc ∨ f = .key ∨ f = .blank ∨ f = .closed ∨ f = .olddim ∨
        f = .storage ∧ ¬ ∀ p ∈ db, p.size ≤ p.vals.length ∧ ∀ d ds, p.dims = d :: ds → (dimVal d).toNat ≤ p.vals.length)) := by
  have h := rp_in conv dimVal db text index
  cases hr : rp conv dimVal db (some text) index with
  | ok a => rw [hr] at h; exact h.elim
  | ret e db' => exact Or.inl ⟨e, db', rfl⟩
  | bad f =>
    rw [hr] at h
    obtain ⟨h1, h2, h3, h4, h5⟩ := h
    refine Or.inr ⟨f, rfl, ?_⟩
    cases f with
    | storage => exact Or.inr (Or.inr (Or.inr (Or.inr (Or.inr ⟨rfl, fun hx => h5 hx rfl⟩))))
    | desc => exact Or.inl rfl
    | key => exact Or.inr (Or.inl rfl)
    | blank => exact Or.inr (Or.inr (Or.inl rfl))
    | closed => exact Or.inr (Or.inr (Or.inr (Or.inl rfl)))
    | olddim => exact Or.inr (Or.inr (Or.inr (Or.inr (Or.inl rfl))))
    | names => exact absurd rfl h2
    | comments => exact absurd rfl h3
    | hang => exact absurd rfl h4
    | fuel => exact absurd rfl h1

/-- C62: whatever the text, with or without an error, a parameter whose name does not occur in the text is not
changed, and no parameter appears, disappears or changes its type or storage. -/
theorem C62_untouched {V : Type} {conv : Ty → List Char → V} {dimVal : List Char → Int} {db db' : Db V} {text : List Char}
    {index : Nat} {e : Option Err} (h : rp conv dimVal db (some text) index = .ret e db') :
    (∀ n, ¬ n <:+: text → find db' n = find db n) ∧
    db'.map (fun p => (p.name, p.type, p.vals.length)) = db.map (fun p => (p.name, p.type, p.vals.length)) := by
  have hk := rp_in conv dimVal db text index
  rw [h] at hk
  exact ⟨hk.other, hk.names⟩

/-- C62: after an error the file read before is read again, so its parameters have its values. -/
theorem C62_fallback {V : Type} {conv : Ty → List Char → V} (hc : NewlineOk conv) (dimVal : List Char → Int)
    {fs : List Char → Option (List Char)} {db db1 : Db V} {name last : List Char} {e : Err}
    (herr : rp conv dimVal db (fs name) 0 = .ret (some e) db1) (hs : Stored db1) (hd : decls db1 = decls db) {f : File}
    (hlast : fs last = some f.render) (hf : f.Good db) :
    ∃ db2, readParams conv dimVal fs (some last) db name 0 = .ok (some e, some last, db2) ∧
      ∀ n, look db2 n = f.entries.foldl (assign conv) (look db1) n := by
  obtain ⟨db2, g1, g2, g3, g4⟩ := C62_file hc dimVal hs
    (f := f) ⟨hf.before, hf.label, fun x hx => (hf.entries x hx).mono hd, hf.last⟩
  refine ⟨db2, ?_, g4⟩
  rw [readParams, herr]
  simp only [Option.getD_some]
  rw [hlast, g1]

/-! A table with two parameters and a file for it. -/

namespace Ex

/-- Values are texts without newline; the empty text stands for what a blank line gives. -/
def conv (_ : Ty) (s : List Char) : List Char := s.filter fun c => c ≠ '\n'

theorem conv_newline : NewlineOk conv := by intro t s; simp [conv]

def pa : Par (List Char) := ⟨['a'], [['n']], 3, .long, [['0'], ['0'], ['0']], [none, none, none], 0, none, false⟩
def pb : Par (List Char) := ⟨['b'], [['n'], ['m']], 2, .float, [['0'], ['0']], [none, none], 0, none, false⟩
def db : Db (List Char) := [pa, pb]
def dimVal (d : List Char) : Int := if d = ['n'] then 3 else 1

/-- `2*5 7`, then a note. -/
def blockA : Block := ⟨[], ['a'], [], [], [['n']], [], 3, [], .long,
  [.vals ⟨1, ⟨some 2, ['5']⟩, [(0, ⟨none, ['7']⟩)]⟩, .note ['x']]⟩
def blockB : Block := ⟨[' '], ['b'], " 10 %f".toList, [' '], [['n'], ['m']], [], 2, [], .float,
  [.vals ⟨0, ⟨none, ['8']⟩, []⟩, .vals ⟨0, ⟨none, ['9']⟩, []⟩]⟩
def unknown : Entry := .unknown [] ['z'] [] [['1'], ['q']]
def file : File := ⟨["info".toList, "** Dimensions **".toList], [], [.listed blockA, unknown, .listed blockB]⟩

theorem stored : Stored db := by
  intro p hp; simp only [db, List.mem_cons, List.not_mem_nil, or_false] at hp
  rcases hp with rfl | rfl <;> exact ⟨rfl, rfl⟩

theorem dec1 : decimal 1 = ['1'] := by rw [decimal]; decide
theorem dec2 : decimal 2 = ['2'] := by rw [decimal]; decide
theorem dec3 : decimal 3 = ['3'] := by rw [decimal]; decide

theorem notHead {l : List Char} (h : l.take 4 ≠ ['#', '#', '#', '#']) : ¬ IsHeader l := by
  intro hx; exact h (by have := (isHead_iff l).2 hx; simpa [isHead] using this)

theorem okA : blockA.Ok := by
  refine ⟨⟨by decide, by decide⟩, ?_, by decide, by decide, by unfold Tail; decide, by unfold Tail; decide, by unfold Tail; decide, by decide, by decide, ?_, ?_⟩
  · intro l hl
    simp [Block.body, blockA, dec1, dec3, Ty.code, SecLine.render, VLine.render, Item.render, dec2] at hl
    rcases hl with rfl | rfl | rfl | rfl | rfl | rfl | rfl <;> exact ⟨by decide, by decide⟩
  · intro l hl
    simp only [blockA, List.mem_cons, List.not_mem_nil, or_false] at hl
    rcases hl with rfl | rfl
    · have e : VLine.render ⟨1, ⟨some 2, ['5']⟩, [(0, ⟨none, ['7']⟩)]⟩ = " 2*5 7".toList := by
        simp [VLine.render, Item.render, dec2]
      refine ⟨?_, ?_, ?_, ?_⟩
      · rw [SecLine.render, e]; exact ⟨by decide, by decide⟩
      · intro i hi
        simp only [VLine.items, List.map_cons, List.map_nil, List.mem_cons, List.not_mem_nil, or_false] at hi
        rcases hi with rfl | rfl
        · exact ⟨by decide, by decide, by decide, by decide⟩
        · exact ⟨by decide, by decide, by decide, by decide⟩
      · rw [e]; exact notHead (by decide)
      · rw [e]; decide
    · exact ⟨⟨by decide, by decide⟩, trivial⟩
  · intro a s b h
    cases a with
    | nil => simp [blockA] at h
    | cons x xs =>
      simp only [blockA, List.cons_append, List.cons.injEq] at h
      rw [← h.1]; simp [total, SecLine.items, VLine.items, Item.count]

theorem okB : blockB.Ok := by
  refine ⟨⟨by decide, by decide⟩, ?_, by decide, by decide, by unfold Tail; decide, by unfold Tail; decide, by unfold Tail; decide, by decide, by decide, ?_, ?_⟩
  · intro l hl
    simp [Block.body, blockB, dec2, Ty.code, SecLine.render, VLine.render, Item.render] at hl
    rcases hl with rfl | rfl | rfl | rfl | rfl | rfl | rfl | rfl <;> exact ⟨by decide, by decide⟩
  · intro l hl
    simp only [blockB, List.mem_cons, List.not_mem_nil, or_false] at hl
    rcases hl with rfl | rfl
    · refine ⟨⟨by decide, by decide⟩, ?_, notHead (by decide), by decide⟩
      intro i hi
      simp only [VLine.items, List.map_nil, List.mem_singleton] at hi
      subst hi
      exact ⟨by decide, by decide, by decide, by decide⟩
    · refine ⟨⟨by decide, by decide⟩, ?_, notHead (by decide), by decide⟩
      intro i hi
      simp only [VLine.items, List.map_nil, List.mem_singleton] at hi
      subst hi
      exact ⟨by decide, by decide, by decide, by decide⟩
  · intro a s b h
    have : SecLine.note s ∈ blockB.sec := by rw [h]; simp
    simp [blockB] at this

theorem goodA : Entry.Good db (.listed blockA) := ⟨okA, ⟨pa, by decide, ⟨rfl, rfl, rfl⟩⟩, by decide⟩
theorem goodB : Entry.Good db (.listed blockB) := ⟨okB, ⟨pb, by decide, ⟨rfl, rfl, rfl⟩⟩, by decide⟩
theorem goodU : Entry.Good db unknown := by
  refine ⟨⟨by decide, by decide⟩, ⟨by decide, by decide⟩, ?_, by decide, notHead (by decide), by decide, by decide⟩
  intro l hl
  simp only [List.mem_cons, List.not_mem_nil, or_false] at hl
  rcases hl with rfl | rfl <;> exact ⟨⟨by decide, by decide⟩, notHead (by decide)⟩

theorem good : file.Good db := by
  refine ⟨?_, ⟨by decide, by decide⟩, ?_, ?_⟩
  · intro l hl
    simp only [file, List.mem_cons, List.not_mem_nil, or_false] at hl
    rcases hl with rfl | rfl <;> exact ⟨⟨by decide, by decide⟩, by decide⟩
  · intro e he
    simp only [file, List.mem_cons, List.not_mem_nil, or_false] at he
    rcases he with rfl | rfl | rfl
    · exact goodA
    · exact goodU
    · exact goodB
  · intro hd name rest body h; simp [file] at h

end Ex

/-- The example file sets both parameters. -/
example : ∃ db', rp Ex.conv Ex.dimVal Ex.db (some Ex.file.render) 0 = .ret none db' ∧
    look db' ['a'] = some [['5'], ['5'], ['7']] ∧ look db' ['b'] = some [['8'], ['9']] := by
  obtain ⟨db', h1, _, _, h2⟩ := C62_file Ex.conv_newline Ex.dimVal Ex.stored Ex.good
  exact ⟨db', h1, by rw [h2]; decide, by rw [h2]; decide⟩

/-- The same entries in a second file. -/
example : ∃ db', rp Ex.conv Ex.dimVal Ex.db
      (some (unlines (["text".toList] ++ [Entry.listed Ex.blockA, Ex.unknown, .listed Ex.blockB].flatMap Entry.lines))) 1 = .ret none db' ∧
    look db' ['b'] = some [['8'], ['9']] := by
  obtain ⟨db', h1, _, _, h2⟩ := C62_more (before := ["text".toList]) Ex.conv_newline Ex.dimVal Ex.stored
    (by intro l hl; simp only [List.mem_singleton] at hl; subst hl; exact ⟨⟨by decide, by decide⟩, Ex.notHead (by decide)⟩)
    (es := [.listed Ex.blockA, Ex.unknown, .listed Ex.blockB]) (by simp) Ex.good.entries Ex.good.last (index := 1) (by decide)
  exact ⟨db', h1, by rw [h2]; decide⟩

/-- The first block with its values twice has too many values: the error is returned, `b` is not changed.  Reading
the good file before it again restores both. -/
example : ∃ db1, rp Ex.conv Ex.dimVal Ex.db
      (some (File.render ⟨[], [], [] ++ .listed { Ex.blockA with sec := Ex.blockA.sec ++ Ex.blockA.sec } :: [.listed Ex.blockB]⟩)) 0 =
        .ret (some .many) db1 ∧ look db1 ['b'] = some [['0'], ['0']] ∧
    ∃ db2, readParams Ex.conv Ex.dimVal
        (fun n => if n = ['x'] then some (File.render ⟨[], [], [] ++ .listed { Ex.blockA with sec := Ex.blockA.sec ++ Ex.blockA.sec } :: [.listed Ex.blockB]⟩)
          else some Ex.file.render) (some ['y']) Ex.db ['x'] 0 = .ok (some .many, some ['y'], db2) ∧
      look db2 ['b'] = some [['8'], ['9']] := by
  have hok : Block.Ok { Ex.blockA with sec := Ex.blockA.sec ++ Ex.blockA.sec } := by
    have h := Ex.okA
    refine ⟨h.hd, ?_, h.name, h.rest, h.p1, h.p2, h.p3, h.dims, h.size, ?_, ?_⟩
    · intro l hl
      apply h.lines
      simp only [Block.body, List.map_append, List.mem_append] at hl ⊢
      rcases hl with hl | hl | hl
      · exact Or.inl hl
      · exact Or.inr hl
      · exact Or.inr hl
    · intro l hl
      simp only [List.mem_append, or_self] at hl
      exact h.sec l hl
    · intro a s b hab
      cases a with
      | nil => simp [Ex.blockA] at hab
      | cons x xs =>
        simp only [Ex.blockA, List.cons_append, List.cons.injEq] at hab
        rw [← hab.1]
        rw [show ∀ y : SecLine, y :: xs = [y] ++ xs from fun _ => rfl, total_append]
        simp [total, SecLine.items, VLine.items, Item.count]
  obtain ⟨db1, old, h1, h2, h3, h4, h5⟩ := C62_count (b := { Ex.blockA with sec := Ex.blockA.sec ++ Ex.blockA.sec })
    (es := []) (tl := [.listed Ex.blockB]) (before := []) (label := []) Ex.conv_newline Ex.dimVal Ex.stored
    (by simp) ⟨by decide, by decide⟩ (by simp) hok ⟨Ex.pa, by decide, ⟨rfl, rfl, rfl⟩⟩ (by decide)
    (by intro e he; simp only [List.mem_singleton] at he; subst he; exact ⟨by decide, by decide⟩)
  rw [if_neg (by decide)] at h1
  refine ⟨db1, h1, ?_, ?_⟩
  · rw [h5, if_neg (by decide)]; decide
  · obtain ⟨db2, g1, g2⟩ := C62_fallback (last := ['y']) (name := ['x']) (f := Ex.file)
      (fs := fun n => if n = ['x'] then some (File.render ⟨[], [], [] ++ .listed { Ex.blockA with sec := Ex.blockA.sec ++ Ex.blockA.sec } :: [.listed Ex.blockB]⟩)
          else some Ex.file.render) Ex.conv_newline Ex.dimVal (by rw [if_pos rfl]; exact h1) h2 h3 (by rw [if_neg (by decide)]) Ex.good
    refine ⟨db2, g1, ?_⟩
    rw [g2]
    simp only [Ex.file, List.foldl_cons, List.foldl_nil, assign]
    rw [if_pos (by decide)]
    decide

/-- C62: a file whose last parameter is not declared is closed twice (undefined behaviour). -/
theorem C62_last_undeclared_violated :
    rp Ex.conv Ex.dimVal Ex.db (some (File.render ⟨[], [], [Ex.unknown]⟩)) 0 = .bad .closed := by decide +kernel

/-! ## C15: saved files -/

theorem flatMap_congr_mem {α β : Type} {f g : α → List β} {l : List α} (h : ∀ x ∈ l, f x = g x) : l.flatMap f = l.flatMap g := by
  induction l with
  | nil => rfl
  | cons a l ih => rw [List.flatMap_cons, List.flatMap_cons, h a (by simp), ih fun x hx => h x (by simp [hx])]

/-- C15: every saved file with a parameter is rejected when it is read: its lines end with a blank, which counts as
one more value.  The first parameter gets its values with zeros in between. -/
theorem C15_violated {V : Type} {conv : Ty → List Char → V} (dimVal : List Char → Int) {show_ : Ty → V → List Char}
    {ds : List Dimen} {before : List (List Char)} (hbt : ds.flatMap saveDim = unlines before) (hb : ∀ l ∈ before, Fits l ∧ ¬ "** Parameters **".toList <+: l)
    {p : Par V} (hp : Savable show_ p) (hshow : ∀ v ∈ p.vals, conv p.type (show_ p.type v) = v) (more : Db V)
    (hs : Stored (p :: more)) :
    ∃ db', rp conv dimVal (p :: more) (some (save show_ ds (p :: more))) 0 = .ret (some .many) db' ∧
      look db' p.name = some ((p.vals.flatMap fun v => [v, conv p.type ['\n']]).take p.size) := by
  obtain ⟨db', h1, h2⟩ := rp_saved (conv := conv) dimVal hbt hb hp more hs (q := p) (by simp [find]) rfl rfl rfl
  refine ⟨db', h1, ?_⟩
  rw [h2, flatMap_congr_mem fun v hv => by rw [hshow v hv]]

/-- Parameters written one value on each line without a blank at the end are restored exactly.  Missing from C15: this
is not the file the code writes (see `C15_violated`). -/
theorem C15_lines_partial {V : Type} {conv : Ty → List Char → V} (hc : NewlineOk conv) (dimVal : List Char → Int)
    {show_ : Ty → V → List Char} {before : List (List Char)}
    (hb : ∀ l ∈ before, Fits l ∧ ¬ "** Parameters **".toList <+: l) {saved db : Db V} (hp : ∀ p ∈ saved, Savable show_ p)
    (hshow : ∀ p ∈ saved, ∀ v ∈ p.vals, conv p.type (show_ p.type v) = v)
    (hnd : (saved.map Par.name).Nodup) (hs : Stored db) (hd : decls db = decls saved) :
    ∃ db', rp conv dimVal db (some (File.render ⟨before, [], saved.map fun p => .listed (plainBlock show_ p)⟩)) 0 = .ret none db' ∧
      ∀ p ∈ saved, look db' p.name = some p.vals := by
  have hexp : ∀ p ∈ saved, expand (conv (plainBlock show_ p).type) (plainBlock show_ p).sec = p.vals := by
    intro p hpm
    have hv := hshow p hpm
    simp only [expand, plainBlock, List.flatMap_map, SecLine.items, VLine.items, List.map_nil, Item.count]
    revert hv
    induction p.vals with
    | nil => intro _; rfl
    | cons v vs ih =>
      intro hv
      simp only [List.flatMap_cons, List.flatMap_append, ih fun x hx => hv x (by simp [hx])]
      simp [hv v (by simp)]
  have hgood : File.Good db ⟨before, [], saved.map fun p => .listed (plainBlock show_ p)⟩ := by
    refine ⟨hb, (⟨by decide, by decide⟩ : Fits ("** Parameters **".toList ++ [])), ?_, ?_⟩
    · intro e he
      simp only [List.mem_map] at he
      obtain ⟨p, hpm, rfl⟩ := he
      have hok := plainBlock_ok (hp p hpm) true
      simp only [if_true] at hok
      refine ⟨hok, ?_, ?_⟩
      · have hf : find saved p.name = some p := by
          clear hp hs hd hb hexp hok hshow
          induction saved with
          | nil => simp at hpm
          | cons x xs ih =>
            simp only [List.map_cons, List.nodup_cons] at hnd
            simp only [List.mem_cons] at hpm
            rcases hpm with rfl | hpm
            · simp [find]
            · have : x.name ≠ p.name := fun hx => hnd.1 (by rw [hx]; exact List.mem_map.2 ⟨p, hpm, rfl⟩)
              simp only [find, List.find?_cons, this, decide_false]
              exact ih hnd.2 hpm
        have := find_decl hd p.name
        rw [hf] at this
        cases hq : find db p.name with
        | none => simp [hq] at this
        | some q =>
          simp only [hq, Option.map_some, Option.some.injEq, Prod.mk.injEq] at this
          exact ⟨q, hq, this.2.1, this.2.2.1, this.2.2.2⟩
      · have h1 := length_expand (conv (plainBlock show_ p).type) (plainBlock show_ p).sec
        rw [hexp p hpm, (hp p hpm).size.2] at h1
        exact h1.symm
    · intro a b c d h
      rw [List.getLast?_map] at h
      simp only [Option.map_eq_some_iff] at h
      obtain ⟨x, _, hx⟩ := h
      simp at hx
  obtain ⟨db', h1, _, _, h2⟩ := C62_file hc dimVal hs hgood
  refine ⟨db', h1, ?_⟩
  intro p hpm
  rw [h2]
  simp only [List.foldl_map]
  -- the last entry with the name of `p` is that of `p`
  have key : ∀ (l : Db V) (g : List Char → Option (List V)), (∀ q ∈ l, q ∈ saved) → (l.map Par.name).Nodup →
      (p ∈ l → l.foldl (fun f q => assign conv f (.listed (plainBlock show_ q))) g p.name = some p.vals) ∧
      (p.name ∉ l.map Par.name → l.foldl (fun f q => assign conv f (.listed (plainBlock show_ q))) g p.name = g p.name) := by
    intro l
    induction l with
    | nil => intro g _ _; simp
    | cons x xs ih =>
      intro g hsub hn
      simp only [List.map_cons, List.nodup_cons] at hn
      obtain ⟨i1, i2⟩ := ih (assign conv g (.listed (plainBlock show_ x))) (fun q hq => hsub q (by simp [hq])) hn.2
      refine ⟨?_, ?_⟩
      · intro hm
        rw [List.foldl_cons]
        simp only [List.mem_cons] at hm
        rcases hm with rfl | hm
        · rw [i2 hn.1]
          simp only [assign]
          rw [hexp p hpm]
          exact if_pos rfl
        · exact i1 hm
      · intro hm
        simp only [List.map_cons, List.mem_cons, not_or] at hm
        rw [List.foldl_cons, i2 hm.2]
        simp only [assign]
        exact if_neg hm.1
  exact (key saved _ (fun q hq => hq) hnd).1 hpm

/-- C15: a description of several lines keeps only its last line (here `x`, `y` after the first value). -/
theorem C15_desc_violated :
    (match rp Ex.conv Ex.dimVal [Ex.pa] (some (unlines ["** Parameters **".toList, "####".toList, ['a'], ['1'], ['n'], ['3'], ['1'],
        ['5'], ['@', 'x'], ['@', 'y'], ['6'], ['7']])) 0 with
      | .ret none db' => (find db' ['a']).map (·.desc)
      | _ => none) = some [some ['y'], none, none] := by decide +kernel

namespace Ex

def pc : Par (List Char) := { pa with vals := [['5'], ['6'], ['7']] }

theorem pc_savable : Savable (fun _ v => v) pc := by
  refine ⟨by decide, ?_, ?_, by decide, by decide, ?_, ?_, by decide⟩
  · intro f hf; simp [pc, pa] at hf
  · have : intText 0 = ['0'] := by simp only [intText]; rw [if_neg (by decide), digitsOf_decimal, decimal]; decide
    simp only [pc, pa, this]; decide
  · exact ⟨by simp only [pc, pa, List.length_cons, List.length_nil]; rw [dec1]; decide, by simp only [pc, pa]; rw [dec3]; decide⟩
  · intro v hv
    simp only [pc, List.mem_cons, List.not_mem_nil, or_false] at hv
    rcases hv with rfl | rfl | rfl <;>
      exact ⟨by decide, by decide, by decide, by decide, by decide, notHead (by decide), by decide⟩

end Ex

/-- Saving `[5, 6, 7]` and reading it back gives `[5, 0, 6]` (`[]` stands for zero) and the error. -/
example : ∃ db', rp Ex.conv Ex.dimVal [Ex.pc] (some (save (fun _ v => v) [⟨['n'], 3, none, none⟩] [Ex.pc])) 0 = .ret (some .many) db' ∧
    look db' ['a'] = some [['5'], [], ['6']] := by
  obtain ⟨db', h1, h2⟩ := C15_violated (conv := Ex.conv) Ex.dimVal (ds := [⟨['n'], 3, none, none⟩])
    (before := ["####".toList, ['n'], ['3']]) (by
      have h3 : intText 3 = ['3'] := by simp only [intText]; rw [if_neg (by decide), digitsOf_decimal, decimal]; decide
      simp only [saveDim, List.flatMap_cons, List.flatMap_nil, h3]
      decide)
    (by
      intro l hl
      simp only [List.mem_cons, List.not_mem_nil, or_false] at hl
      rcases hl with rfl | rfl | rfl <;> exact ⟨⟨by decide, by decide⟩, by decide⟩)
    Ex.pc_savable (by decide) [] (by intro p hp; rw [List.mem_singleton.1 hp]; exact ⟨rfl, rfl⟩)
  exact ⟨db', h1, h2.trans (by decide)⟩

/-- The same values on lines without blanks at their ends are restored. -/
example : ∃ db', rp Ex.conv Ex.dimVal [Ex.pa] (some (File.render ⟨[], [], [Ex.pc].map fun p => .listed (plainBlock (fun _ v => v) p)⟩)) 0 =
      .ret none db' ∧ look db' ['a'] = some [['5'], ['6'], ['7']] := by
  obtain ⟨db', h1, h2⟩ := C15_lines_partial (before := []) Ex.conv_newline Ex.dimVal (show_ := fun _ v => v) (by simp)
    (saved := [Ex.pc]) (db := [Ex.pa]) (by intro p hp; rw [List.mem_singleton.1 hp]; exact Ex.pc_savable) (by decide) (by decide)
    (by intro p hp; rw [List.mem_singleton.1 hp]; exact ⟨rfl, rfl⟩) rfl
  exact ⟨db', h1, h2 Ex.pc (by simp)⟩

/-! ## C63: the dimensions in a parameter file -/

/-- C63: the sizes and index names of the declared dimensions are those of the file; others keep theirs. -/
theorem C63_dims {ds : List Dimen} {f : DimFile} (hf : f.Ok ds) (hnone : ∀ d ∈ ds, d.names = none ∧ d.notes = none) :
    ∃ ds', readDims ds (some (unlines f.lines)) = .ret none ds' ∧
      ∀ n, dimOf ds' n = f.blocks.foldl dassign (dimOf ds) n := by
  obtain ⟨ds', h1, h2⟩ := readDims_ok hf hnone
  exact ⟨ds', h1, fun n => congrFun h2 n⟩

/-- C63: whatever the text, reading the dimensions ends with or without an error, or meets one of three defects (an
index name or note that does not fit the size, more than 1000 comments, a note at the end of the file, where the
program does not end). -/
theorem C63_any_text (ds : List Dimen) (text : List Char) :
    (∃ e ds', readDims ds (some text) = .ret e ds') ∨
    readDims ds (some text) = .bad .names ∨ readDims ds (some text) = .bad .comments ∨ readDims ds (some text) = .bad .hang := by
  have h := readDims_in ds text
  cases hr : readDims ds (some text) with
  | ok a => rw [hr] at h; exact h.elim
  | ret e ds' => exact Or.inl ⟨e, ds', rfl⟩
  | bad f =>
    rw [hr] at h
    rcases h with rfl | rfl | rfl
    · exact Or.inr (Or.inl rfl)
    · exact Or.inr (Or.inr (Or.inl rfl))
    · exact Or.inr (Or.inr (Or.inr rfl))

/-- C63: whatever the text, a dimension whose name does not occur in it is not changed. -/
theorem C63_untouched {ds ds' : List Dimen} {text : List Char} {e : Option Err}
    (h : readDims ds (some text) = .ret e ds') :
    ds'.map Dimen.name = ds.map Dimen.name ∧ ∀ n, ¬ n <:+: text → findDim ds' n = findDim ds n := by
  have hk := readDims_in ds text
  rw [h] at hk
  exact ⟨hk.names, hk.other⟩

namespace Ex

set_option synthInstance.maxSize 100000 in
set_option synthInstance.maxHeartbeats 2000000 in
instance : DecidableEq (Int × Option (List (Option (List Char))) × Option (List (Option (List Char)))) := inferInstance

def dims : List Dimen := [⟨['m'], 1, none, none⟩, ⟨['n'], 3, none, none⟩]

/-- Sizes 2 and 4, index names with a note for `n`, a dimension that is not declared. -/
def dimFile : DimFile := ⟨"info".toList, "Version: 1.7".toList, ["comment".toList], [],
  [⟨[], ['n'], 2, [], [(['p'], none), (['q'], some ['r'])]⟩, ⟨[], ['z'], 5, [], []⟩, ⟨[], ['m'], 4, [], []⟩], [], [['x']]⟩

theorem dec4 : decimal 4 = ['4'] := by rw [decimal]; decide
theorem dec5 : decimal 5 = ['5'] := by rw [decimal]; decide

theorem dimFile_ok : dimFile.Ok dims := by
  refine ⟨by decide, by decide, ?_, by decide, by decide, ?_, by decide, ⟨by decide, by decide⟩⟩
  · intro l hl
    simp only [dimFile, List.mem_singleton] at hl
    subst hl; exact ⟨by decide, by decide, by decide⟩
  · intro b hb
    simp only [dimFile, List.mem_cons, List.not_mem_nil, or_false] at hb
    rcases hb with rfl | rfl | rfl
    · refine ⟨?_, by decide, by unfold Tail; decide, Or.inr rfl, ?_, by decide⟩
      · intro l hl
        simp [DimBlock.lines, idxLines, dec2] at hl
        rcases hl with rfl | rfl | rfl | rfl | rfl | rfl <;> exact ⟨by decide, by decide⟩
      · intro x hx
        simp only [List.mem_cons, List.not_mem_nil, or_false] at hx
        rcases hx with rfl | rfl <;> exact ⟨by decide, notHead (by decide), by decide⟩
    · refine ⟨?_, by decide, by unfold Tail; decide, Or.inl rfl, by simp, by decide⟩
      intro l hl
      simp [DimBlock.lines, dec5] at hl
      rcases hl with rfl | rfl | rfl <;> exact ⟨by decide, by decide⟩
    · refine ⟨?_, by decide, by unfold Tail; decide, Or.inl rfl, by simp, by decide⟩
      intro l hl
      simp [DimBlock.lines, dec4] at hl
      rcases hl with rfl | rfl | rfl <;> exact ⟨by decide, by decide⟩

end Ex

example : ∃ ds', readDims Ex.dims (some (unlines Ex.dimFile.lines)) = .ret none ds' ∧
    dimOf ds' ['n'] = some (2, some [some ['p'], some ['q']], some [none, some ['r']]) ∧ dimOf ds' ['m'] = some (4, none, none) := by
  obtain ⟨ds', h1, h2⟩ := C63_dims Ex.dimFile_ok (by
    intro d hd; simp only [Ex.dims, List.mem_cons, List.not_mem_nil, or_false] at hd
    rcases hd with rfl | rfl <;> exact ⟨rfl, rfl⟩)
  exact ⟨ds', h1, by rw [h2]; rfl, by rw [h2]; rfl⟩

/-- C63: index names after a dimension that is not declared end the reading with an error; the dimensions after it
keep their old sizes. -/
theorem C63_undeclared_violated :
    (match readDims Ex.dims (some (unlines ["i".toList, "v".toList, "** Dimensions **".toList, "####".toList, ['z'], ['2'], ['p'], ['q'],
        "####".toList, ['n'], ['7'], "** Parameters **".toList])) with
      | .ret e ds' => some (e, dimOf ds' ['n'])
      | _ => none) = some (some .header, some (3, none, none)) := by decide +kernel

/-- C63: when the last dimension has fewer index names than its size, the label of the parameters becomes an index
name and reading ends with an error. -/
theorem C63_names_violated :
    (match readDims Ex.dims (some (unlines ["i".toList, "v".toList, "** Dimensions **".toList, "####".toList, ['n'], ['2'], ['p'],
        "** Parameters **".toList, "####".toList, ['a']])) with
      | .ret e ds' => some (e, dimOf ds' ['n'])
      | .bad _ => none
      | .ok _ => none) = some (some .dimName, some (2, some [some ['p'], some "** Parameters **".toList], some [none, none])) := by
  decide +kernel

/-- C63: a note that is the last line of the file makes the program loop forever. -/
theorem C63_hang_violated :
    readDims Ex.dims (some (unlines ["i".toList, "v".toList, "** Dimensions **".toList, "####".toList, ['n'], ['1'], ['p'], ['@', 'x']])) =
      .bad .hang := by decide +kernel

end Verif.ParFile
