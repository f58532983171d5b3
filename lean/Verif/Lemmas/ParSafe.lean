import Verif.Lemmas.ParFile
/- Reading any text: the reader ends, keeps inside the storage and changes only what is named. -/
namespace Verif.ParFile
open Verif.CText Verif.CFile

/-- What holds of every outcome. -/
def Out.Sat {V α : Type} (F : Fault → Prop) (R : Db V → Prop) (Q : α → Prop) : Out V α → Prop
  | .bad f => F f
  | .ret _ db => R db
  | .ok a => Q a

theorem Out.Sat.bind {V α β : Type} {F : Fault → Prop} {R : Db V → Prop} {Q : α → Prop} {Q' : β → Prop} {x : Out V α}
    {g : α → Out V β} (h : x.Sat F R Q) (hg : ∀ a, Q a → (g a).Sat F R Q') : (x.bind g).Sat F R Q' := by
  cases x with
  | bad f => exact h
  | ret e db => exact h
  | ok a => exact hg a h

theorem fgetsTake_split : ∀ (n : Nat) (s : List Char), (fgetsTake n s).1 ++ (fgetsTake n s).2 = s
  | 0, s => by simp [fgetsTake]
  | n + 1, [] => by simp [fgetsTake]
  | n + 1, c :: s => by
    have := fgetsTake_split n s
    unfold fgetsTake
    split <;> simp [this]

theorem fgets_split {num : Nat} {st st' : Stream} {l : List Char} (h : fgets num st = some (l, st')) :
    l ++ st'.rest = st.rest := by
  unfold fgets at h
  split at h
  · simp at h
  · simp only [Option.some.injEq, Prod.mk.injEq] at h
    rw [← h.1, ← h.2]
    exact fgetsTake_split _ _

theorem splitBy_infix (p : Char → Bool) : ∀ (s : List Char),
    (∀ t ts, splitBy p s = t :: ts → t <+: s) ∧ ∀ t ∈ splitBy p s, t <:+: s
  | [] => by simp [splitBy]
  | c :: s => by
    obtain ⟨h1, h2⟩ := splitBy_infix p s
    unfold splitBy
    split
    · refine ⟨?_, ?_⟩
      · intro t ts h
        simp only [List.cons.injEq] at h
        rw [← h.1]; exact List.nil_prefix
      · intro t ht
        simp only [List.mem_cons] at ht
        rcases ht with rfl | ht
        · exact List.nil_infix
        · exact (h2 t ht).trans (List.suffix_cons c s).isInfix
    · cases hs : splitBy p s with
      | nil => exact absurd hs (splitBy_ne_nil p s)
      | cons a r =>
        have ha := h1 a r hs
        have hp : c :: a <+: c :: s := List.cons_prefix_cons.2 ⟨rfl, ha⟩
        refine ⟨?_, ?_⟩
        · intro t ts h
          simp only [List.cons.injEq] at h
          rw [← h.1]; exact hp
        · intro t ht
          simp only [List.mem_cons] at ht
          rcases ht with rfl | ht
          · exact hp.isInfix
          · exact (h2 t (by rw [hs]; simp [ht])).trans (List.suffix_cons c s).isInfix

theorem strtok_infix {p : Char → Bool} {s t : List Char} (h : t ∈ strtok p s) : t <:+: s :=
  (splitBy_infix p s).2 t (List.mem_filter.1 h).1

/-- Storage for the sizes in the table and for the sizes the old format may set. -/
def Room {V} (dimVal : List Char → Int) (db : Db V) : Prop :=
  ∀ p ∈ db, p.size ≤ p.vals.length ∧ ∀ d ds, p.dims = d :: ds → (dimVal d).toNat ≤ p.vals.length

/-- What reading `text` keeps of the table `db0`. -/
structure Kept {V} (dimVal : List Char → Int) (text : List Char) (db0 db : Db V) : Prop where
  names : db.map (fun p => (p.name, p.type, p.vals.length)) = db0.map (fun p => (p.name, p.type, p.vals.length))
  other : ∀ n, ¬ n <:+: text → find db n = find db0 n
  room : Room dimVal db0 → Room dimVal db

theorem Kept.update {V} {dimVal : List Char → Int} {text : List Char} {db0 db : Db V} (h : Kept dimVal text db0 db)
    {key : List Char} (hk : key <:+: text) (f : Par V → Par V) (hf : ∀ p, (f p).name = p.name ∧ (f p).type = p.type)
    (hv : ∀ p, find db key = some p → (f p).vals.length = p.vals.length)
    (hr : ∀ p, find db key = some p → Room dimVal db → (f p).size ≤ p.vals.length ∧
      ∀ d ds, (f p).dims = d :: ds → (dimVal d).toNat ≤ p.vals.length) :
    Kept dimVal text db0 (update key f db) := by
  refine ⟨?_, ?_, ?_⟩
  · rw [← h.names]
    clear h hr
    induction db with
    | nil => rfl
    | cons p r ih =>
      simp only [ParFile.update]
      split
      · rename_i hp
        have := hv p (by simp [find, hp])
        simp [hf p, this]
      · rename_i hp
        simp only [List.map_cons]
        rw [ih]
        intro q hq
        apply hv q
        simp only [find, List.find?_cons, hp, decide_false]
        exact hq
  · intro n hn
    rw [find_update key f (fun p => (hf p).1)]
    split
    · rename_i he; exact absurd (he ▸ hk) hn
    · exact h.other n hn
  · intro h0 q hq
    rcases mem_update hq with hq | ⟨p, h1, rfl⟩
    · exact h.room h0 q hq
    · have := hr p h1 (h.room h0)
      rw [hv p h1]
      exact this

/-- Faults that cannot happen. -/
def NoFault {V} (dimVal : List Char → Int) (db0 : Db V) (f : Fault) : Prop :=
  f ≠ .fuel ∧ f ≠ .names ∧ f ≠ .comments ∧ f ≠ .hang ∧ (Room dimVal db0 → f ≠ .storage)

/-- A stream inside the text with at most `n` characters left. -/
def In (text : List Char) (n : Nat) (st : Stream) : Prop := st.rest <:+ text ∧ st.rest.length ≤ n

theorem In.mono {text : List Char} {n m : Nat} {st : Stream} (h : In text n st) (hm : n ≤ m) : In text m st :=
  ⟨h.1, Nat.le_trans h.2 hm⟩

theorem fgets_in {text : List Char} {num n : Nat} (hn : 2 ≤ num) {st st' : Stream} {l : List Char} (h : In text n st)
    (hg : fgets num st = some (l, st')) : 0 < n ∧ l <:+: text ∧ In text (n - 1) st' := by
  have h1 := fgets_split hg
  have h2 := Control.fgets_length hn hg
  have h3 := h.2
  refine ⟨by omega, ?_, ?_, by omega⟩
  · exact (List.IsPrefix.isInfix ⟨_, h1⟩).trans h.1.isInfix
  · exact (List.IsSuffix.trans ⟨_, h1⟩ h.1)

section
variable {V : Type} {dimVal : List Char → Int} {text : List Char} {db0 : Db V}

theorem must_in {num n : Nat} (hn : 2 ≤ num) {db : Db V} (hk : Kept dimVal text db0 db) {st : Stream} (h : In text n st)
    (e : Err) : (must num e db st).Sat (NoFault dimVal db0) (Kept dimVal text db0)
      fun r => 0 < n ∧ r.1 <:+: text ∧ In text (n - 1) r.2 := by
  unfold must
  cases hg : fgets num st with
  | none => exact hk
  | some r => exact fgets_in hn h hg

theorem skipTo_in : ∀ (fuel : Nat) (line : List Char) (st : Stream) (n : Nat), In text n st → n + 1 ≤ fuel →
    (skipTo fuel line st : Out V Stream).Sat (NoFault dimVal db0) (Kept dimVal text db0) fun st' => In text n st'
  | 0, _, _, n, _, hf => absurd hf (by omega)
  | fuel + 1, line, st, n, h, hf => by
    rw [skipTo]
    split
    · exact h
    · cases hg : fgets MAXLNLEN st with
      | none => exact ⟨by simp, by simp, by simp, by simp, fun _ => by simp⟩
      | some r =>
        obtain ⟨h1, _, h2⟩ := fgets_in (by decide) h hg
        have := skipTo_in fuel r.1 r.2 (n - 1) h2 (by omega)
        simp only []
        revert this
        cases (skipTo fuel r.1 r.2 : Out V Stream) with
        | bad f => exact id
        | ret e db => exact id
        | ok a => exact fun h => h.mono (by omega)

theorem readDimens_in {db : Db V} (hk : Kept dimVal text db0 db) : ∀ (ds : List (List Char)) (st : Stream) (n : Nat),
    In text n st → (readDimens db ds st).Sat (NoFault dimVal db0) (Kept dimVal text db0) fun st' => In text n st'
  | [], _, _, h => h
  | d :: ds, st, n, h => by
    rw [readDimens]
    refine (must_in (by decide) hk h _).bind fun r hr => ?_
    split
    · exact hk
    · exact readDimens_in hk ds r.2 n (hr.2.2.mono (by omega))

theorem readType_in {db : Db V} (hk : Kept dimVal text db0 db) (p : Par V) {st : Stream} {n : Nat} (h : In text n st) :
    (readType db p st).Sat (NoFault dimVal db0) (Kept dimVal text db0) fun st' => In text n st' := by
  unfold readType
  refine (must_in (by decide) hk h _).bind fun r hr => ?_
  split
  · exact hk
  · split
    · exact hk
    · exact hr.2.2.mono (by omega)

theorem find_names {db db' : Db V}
    (h : db'.map (fun p => (p.name, p.type, p.vals.length)) = db.map (fun p => (p.name, p.type, p.vals.length)))
    (n : List Char) : (find db' n).map (fun p => (p.type, p.vals.length)) = (find db n).map (fun p => (p.type, p.vals.length)) := by
  induction db generalizing db' with
  | nil => cases db' with
    | nil => rfl
    | cons a b => simp at h
  | cons p r ih =>
    cases db' with
    | nil => simp at h
    | cons a b =>
      simp only [List.map_cons, List.cons.injEq, Prod.mk.injEq] at h
      have := ih h.2
      simp only [find, List.find?_cons] at this ⊢
      by_cases hn : a.name = n
      · simp [hn, ← h.1.1, h.1.2.1, h.1.2.2]
      · have hp : p.name ≠ n := by rw [← h.1.1]; exact hn
        simp only [hn, hp, decide_false]; exact this

theorem readDecl_in {db : Db V} (hk : Kept dimVal text db0 db) {p : Par V} (hp : p.name <:+: text)
    (hd : ∀ q, find db p.name = some q → q.dims = p.dims) {st : Stream} {n : Nat} (h : In text n st) :
    (readDecl dimVal db p st).Sat (NoFault dimVal db0) (Kept dimVal text db0)
      fun r => Kept dimVal text db0 r.1 ∧ In text n r.2 := by
  unfold readDecl
  refine (must_in (by decide) hk h _).bind fun r hr => ?_
  have hr2 : In text n r.2 := hr.2.2.mono (by omega)
  split
  · split
    · exact hk
    · split
      · exact hk
      · refine (readDimens_in hk _ _ n hr2).bind fun st2 h2 => ?_
        refine (must_in (by decide) hk h2 _).bind fun s hs => ?_
        split
        · exact hk
        · split
          · exact hk
          · exact (readType_in hk p (hs.2.2.mono (Nat.sub_le _ _))).bind fun st3 h3 => ⟨hk, h3⟩
  · have hk1 : Kept dimVal text db0 (update p.name (fun q => { q with dims := q.dims.take 1 }) db) := by
      refine hk.update hp _ (fun _ => ⟨rfl, rfl⟩) (fun _ _ => rfl) ?_
      intro q hq hroom
      obtain ⟨h1, h2⟩ := hroom q (find_mem hq).1
      refine ⟨h1, ?_⟩
      intro d ds hds
      cases hqd : q.dims with
      | nil => simp [hqd] at hds
      | cons a b =>
        simp only [hqd, List.take_succ_cons, List.take_zero, List.cons.injEq] at hds
        exact h2 d b (by rw [hqd, hds.1])
    simp only []
    split
    · exact ⟨by simp, by simp, by simp, by simp, fun _ => by simp⟩
    · split
      · exact ⟨by simp, by simp, by simp, by simp, fun _ => by simp⟩
      · rename_i d0 more hpd
        split
        · split
          · exact ⟨by simp, by simp, by simp, by simp, fun _ => by simp⟩
          · exact hk1
        · have hk2 : Kept dimVal text db0 (update p.name (fun q => { q with size := (dimVal d0).toNat })
              (update p.name (fun q => { q with dims := q.dims.take 1 }) db)) := by
            refine hk1.update hp _ (fun _ => ⟨rfl, rfl⟩) (fun _ _ => rfl) ?_
            intro q hq hroom
            obtain ⟨h1, h2⟩ := hroom q (find_mem hq).1
            refine ⟨?_, h2⟩
            rw [find_update p.name (fun q => { q with dims := q.dims.take 1 }) (fun _ => rfl)] at hq
            simp only [if_true, Option.map_eq_some_iff] at hq
            obtain ⟨q0, hq0, rfl⟩ := hq
            have := hd q0 hq0
            exact h2 d0 [] (by simp [this, hpd])
          exact (readType_in hk2 p hr2).bind fun st3 h3 => ⟨hk2, h3⟩

theorem head_in {db : Db V} (hk : Kept dimVal text db0 db) {line : List Char} {st : Stream} {fuel n : Nat}
    (h : In text n st) (hf : n + 1 ≤ fuel) :
    (head dimVal fuel db line st).Sat (NoFault dimVal db0) (Kept dimVal text db0)
      fun r => Kept dimVal text db0 r.2.1 ∧ 0 < n ∧ In text (n - 1) r.2.2.2 ∧
        ∀ key, r.1 = some key → key <:+: text ∧ ∃ p, find r.2.1 key = some p := by
  unfold head
  refine (skipTo_in fuel line st n h hf).bind fun st1 h1 => ?_
  refine (must_in (by decide) hk h1 _).bind fun r hr => ?_
  obtain ⟨hn, hr1, hr2⟩ := hr
  split
  · exact ⟨by simp, by simp, by simp, by simp, fun _ => by simp⟩
  · rename_i t ts hts
    simp only []
    split
    · exact ⟨by simp, by simp, by simp, by simp, fun _ => by simp⟩
    · cases hfd : find db (t.takeWhile fun c => decide (c ≠ '\n')) with
      | none => exact ⟨hk, hn, hr2, by simp⟩
      | some p =>
        have hkey : (t.takeWhile fun c => decide (c ≠ '\n')) <:+: text :=
          ((List.takeWhile_prefix _).isInfix.trans (strtok_infix (by rw [hts]; simp))).trans hr1
        have hname := (find_mem hfd).2
        simp only []
        refine (readDecl_in (hk.update hkey (fun q => { q with readIn := true, width := widthOf ts, format := formatOf ts })
          (fun _ => ⟨rfl, rfl⟩) (fun _ _ => rfl) ?_) (by rw [hname]; exact hkey) ?_ hr2).bind fun d hd => ?_
        · intro q hq hroom
          exact hroom q (find_mem hq).1
        · intro q hq
          rw [find_update _ (fun q => { q with readIn := true, width := widthOf ts, format := formatOf ts }) (fun _ => rfl), hname] at hq
          simp only [if_true, hfd, Option.map_some, Option.some.injEq] at hq
          rw [← hq]
        · refine ⟨hd.1, hn, hd.2, ?_⟩
          intro key hkk
          simp only [Option.some.injEq] at hkk
          subst hkk
          refine ⟨hkey, ?_⟩
          have h1 := find_names hd.1.names (t.takeWhile fun c => decide (c ≠ '\n'))
          have h2 := find_names hk.names (t.takeWhile fun c => decide (c ≠ '\n'))
          rw [← h2, hfd] at h1
          cases hx : find d.1 (t.takeWhile fun c => decide (c ≠ '\n')) with
          | none => rw [hx] at h1; simp at h1
          | some q => exact ⟨q, rfl⟩

theorem storeRep_length {size : Nat} {rep : Int} {v : V} {c c' : Cur V} {b : Bool} (h : storeRep size rep v c = some (b, c')) :
    c'.vals.length = c.vals.length ∧ (c.i ≤ size → b = false → c'.i ≤ size) := by
  have hfill : ∀ m l, fill c m v = some l → l.length = c.vals.length := by
    intro m l hl
    unfold fill at hl
    split at hl
    · simp only [Option.some.injEq] at hl; rw [← hl]
    · split at hl
      · simp only [Option.some.injEq] at hl; rw [← hl]; simp; omega
      · simp at hl
  unfold storeRep at h
  simp only [] at h
  split at h
  · simp only [Option.map_eq_some_iff, Prod.mk.injEq] at h
    obtain ⟨l, h1, h2, h3⟩ := h
    rw [← h3]
    exact ⟨hfill _ _ h1, fun _ _ => by simp only; omega⟩
  · simp only [Option.map_eq_some_iff, Prod.mk.injEq] at h
    obtain ⟨l, h1, h2, h3⟩ := h
    rw [← h3]
    exact ⟨hfill _ _ h1, fun _ hb => by rw [← h2] at hb; simp at hb⟩

theorem storeRep_some {size : Nat} (rep : Int) (v : V) {c : Cur V} (h1 : size ≤ c.vals.length) (h2 : c.i ≤ size) :
    storeRep size rep v c ≠ none := by
  unfold storeRep
  simp only []
  split
  · rw [fill_eq (by omega)]; simp
  · rw [fill_eq (by omega)]; simp

theorem words_length {conv : Ty → List Char → V} {ty : Ty} {size : Nat} : ∀ (ts : List (List Char)) (c : Cur V),
    (size ≤ c.vals.length → c.i ≤ size → words conv ty size ts c ≠ none) ∧
    ∀ b c', words conv ty size ts c = some (b, c') →
      c'.vals.length = c.vals.length ∧ (c.i ≤ size → b = false → c'.i ≤ size)
  | [], c => by
    refine ⟨fun _ _ => by simp [words], ?_⟩
    intro b c' h
    simp only [words, Option.some.injEq, Prod.mk.injEq] at h
    rw [← h.2]; exact ⟨rfl, fun h _ => h⟩
  | t :: ts, c => by
    rw [words]
    cases hs : storeRep size (repText t).1 (conv ty (repText t).2) c with
    | none => exact ⟨fun h1 h2 => absurd hs (storeRep_some _ _ h1 h2), by simp⟩
    | some r =>
      obtain ⟨b1, c1⟩ := r
      obtain ⟨h1, h2⟩ := storeRep_length hs
      cases b1 with
      | true =>
        refine ⟨fun _ _ => by simp, ?_⟩
        intro b c' h
        simp only [Option.some.injEq, Prod.mk.injEq] at h
        rw [← h.2]
        exact ⟨h1, fun _ hb => by rw [← h.1] at hb; simp at hb⟩
      | false =>
        obtain ⟨g1, g2⟩ := words_length (conv := conv) (ty := ty) (size := size) ts c1
        refine ⟨fun a b => g1 (by omega) (h2 b rfl), ?_⟩
        intro b c' h
        obtain ⟨k1, k2⟩ := g2 b c' h
        exact ⟨k1.trans h1, fun hi hb => k2 (h2 hi rfl) hb⟩

theorem valLines_in {conv : Ty → List Char → V} {ty : Ty} {size : Nat} : ∀ (fuel : Nat) (st : Stream) (c : Cur V) (n : Nat),
    In text n st → n + 1 ≤ fuel → (Room dimVal db0 → size ≤ c.vals.length) → c.i ≤ size →
    (valLines conv ty size fuel st c).Sat (NoFault dimVal db0) (Kept dimVal text db0)
      fun r => In text n r.2.1 ∧ r.2.2.vals.length = c.vals.length
  | 0, _, _, n, _, hf, _, _ => absurd hf (by omega)
  | fuel + 1, st, c, n, h, hf, hr, hi => by
    rw [valLines]
    cases hg : fgets MAXLNLEN st with
    | none => exact ⟨⟨List.nil_suffix, by simp⟩, rfl⟩
    | some r =>
      obtain ⟨l, st'⟩ := r
      obtain ⟨h1, _, h2⟩ := fgets_in (by decide) h hg
      have h2' : In text n st' := h2.mono (by omega)
      have weaken : ∀ {x : Out V (List Char × Stream × Cur V)} {c1 : Cur V}, c1.vals.length = c.vals.length →
          x.Sat (NoFault dimVal db0) (Kept dimVal text db0) (fun r => In text (n - 1) r.2.1 ∧ r.2.2.vals.length = c1.vals.length) →
          x.Sat (NoFault dimVal db0) (Kept dimVal text db0) (fun r => In text n r.2.1 ∧ r.2.2.vals.length = c.vals.length) := by
        intro x c1 hc hx
        cases x with
        | bad f => exact hx
        | ret e db => exact hx
        | ok a => exact ⟨hx.1.mono (by omega), hx.2.trans hc⟩
      simp only []
      split
      · exact ⟨h2', rfl⟩
      · split
        · split
          · exact weaken (by rfl) (valLines_in fuel st' { c with desc := c.desc.set (c.i - 1) (some (l.tail.takeWhile fun ch => ch ≠ '\n')) }
              (n - 1) h2 (by omega) hr hi)
          · exact ⟨by simp, by simp, by simp, by simp, fun _ => by simp⟩
        · obtain ⟨g1, g2⟩ := words_length (conv := conv) (ty := ty) (size := size) (strtok (fun ch => decide (ch = ' ')) l) c
          cases hw : words conv ty size (strtok (fun ch => decide (ch = ' ')) l) c with
          | none => exact ⟨by simp, by simp, by simp, by simp, fun hroom => absurd hw (g1 (hr hroom) hi)⟩
          | some r =>
            obtain ⟨b, c'⟩ := r
            obtain ⟨k1, k2⟩ := g2 b c' hw
            cases b with
            | true => exact ⟨h2', k1⟩
            | false => exact weaken k1 (valLines_in fuel st' c' (n - 1) h2 (by omega) (by rw [k1]; exact hr) (k2 hi rfl))

theorem values_in {conv : Ty → List Char → V} {db : Db V} (hk : Kept dimVal text db0 db) {p : Par V}
    (hp : find db p.name = some p) (ht : p.name <:+: text) {st : Stream} {fuel n : Nat} (h : In text n st) (hf : n + 1 ≤ fuel) :
    (values conv fuel db p st).Sat (NoFault dimVal db0) (Kept dimVal text db0)
      fun r => Kept dimVal text db0 r.1 ∧ In text n r.2.2 := by
  unfold values
  refine (valLines_in (dimVal := dimVal) (db0 := db0) fuel st ⟨0, p.vals, p.desc⟩ n h hf
    (fun hroom => (hk.room hroom p (find_mem hp).1).1) (by simp)).bind fun r hr => ?_
  have hk1 : Kept dimVal text db0 (update p.name (fun q => { q with vals := r.2.2.vals, desc := r.2.2.desc }) db) := by
    refine hk.update ht _ (fun _ => ⟨rfl, rfl⟩) ?_ ?_
    · intro q hq
      rw [hp] at hq
      simp only [Option.some.injEq] at hq
      rw [← hq]; exact hr.2
    · intro q hq hroom
      exact hroom q (find_mem hq).1
  simp only []
  split
  · exact hk1
  · split
    · exact hk1
    · exact ⟨hk1, hr.1⟩

theorem readLoop_in {conv : Ty → List Char → V} {fuel : Nat} : ∀ (m : Nat) (db : Db V) (line : List Char) (st : Stream) (n : Nat),
    Kept dimVal text db0 db → In text n st → n + 1 ≤ fuel → n + 1 ≤ m →
    (readLoop conv dimVal fuel m db line st).Sat (NoFault dimVal db0) (Kept dimVal text db0) fun _ => False
  | 0, _, _, _, n, _, _, _, hm => absurd hm (by omega)
  | m + 1, db, line, st, n, hk, h, hf, hm => by
    rw [readLoop]
    split
    · exact hk
    · refine (head_in hk h hf).bind fun r hr => ?_
      obtain ⟨h1, h2, h3, h4⟩ := hr
      split
      · exact readLoop_in m _ _ _ (n - 1) h1 h3 (by omega) (by omega)
      · rename_i key hkey
        obtain ⟨h5, p, h6⟩ := h4 key hkey
        rw [h6]
        have hname := (find_mem h6).2
        simp only []
        refine (values_in h1 (by rw [hname]; exact h6) (by rw [hname]; exact h5) h3 (by omega)).bind fun v hv => ?_
        exact readLoop_in m _ _ _ (n - 1) hv.1 hv.2 (by omega) (by omega)

theorem skipDims_in {db : Db V} (hk : Kept dimVal text db0 db) : ∀ (fuel : Nat) (line : List Char) (st : Stream) (n : Nat),
    In text n st → n + 1 ≤ fuel →
    (skipDims db fuel line st).Sat (NoFault dimVal db0) (Kept dimVal text db0) fun r => In text n r.2
  | 0, _, _, n, _, hf => absurd hf (by omega)
  | fuel + 1, line, st, n, h, hf => by
    rw [skipDims]
    split
    · cases hg : fgets MAXLNLEN st with
      | none => exact ⟨List.nil_suffix, by simp⟩
      | some r =>
        obtain ⟨h1, _, h2⟩ := fgets_in (by decide) h hg
        exact h2.mono (by omega)
    · cases hg : fgets MAXLNLEN st with
      | none => exact hk
      | some r =>
        obtain ⟨h1, _, h2⟩ := fgets_in (by decide) h hg
        have := skipDims_in hk fuel r.1 r.2 (n - 1) h2 (by omega)
        simp only []
        revert this
        cases (skipDims db fuel r.1 r.2 : Out V (List Char × Stream)) with
        | bad f => exact id
        | ret e db => exact id
        | ok a => exact fun h => In.mono h (by omega)

end

/-- Every text, every table. -/
theorem rp_in {V : Type} (conv : Ty → List Char → V) (dimVal : List Char → Int) (db : Db V) (text : List Char) (index : Nat) :
    (rp conv dimVal db (some text) index).Sat (NoFault dimVal db) (Kept dimVal text db) fun _ => False := by
  have hk : Kept dimVal text db db := ⟨rfl, fun _ _ => rfl, id⟩
  have hin : In text text.length (openText text) := ⟨List.suffix_refl _, Nat.le_refl _⟩
  unfold rp
  simp only []
  cases hg : fgets MAXLNLEN (openText text) with
  | none => exact ⟨by simp, by simp, by simp, by simp, fun _ => by simp⟩
  | some r =>
    obtain ⟨l, st⟩ := r
    obtain ⟨h1, _, h2⟩ := fgets_in (by decide) hin hg
    have h3 : In text text.length st := h2.mono (by omega)
    simp only []
    split
    · refine (skipDims_in hk _ _ _ text.length h3 (by omega)).bind fun x hx => ?_
      exact readLoop_in _ _ _ _ text.length hk hx (by omega) (by omega)
    · exact readLoop_in _ _ _ _ text.length hk h3 (by omega) (by omega)

end Verif.ParFile
