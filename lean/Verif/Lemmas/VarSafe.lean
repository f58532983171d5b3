import Verif.Lemmas.VarFile
import Verif.Lemmas.ParSafe
/- Reading any text: the reader ends, keeps inside the storage and changes only what is named. -/
namespace Verif.VarFile
open Verif.CText Verif.CFile
open Verif.ParFile (Ty MAXLNLEN MAXKEYLEN MAXDIMLEN MAXINFOLEN isHead In fgets_in)

/-- What holds of every outcome. -/
def Out.Sat {V α : Type} (F : Fault → Prop) (R : St V → Prop) (Q : α → Prop) : Out V α → Prop
  | .bad f => F f
  | .ret _ s => R s
  | .ok a => Q a

theorem Out.Sat.bind {V α β : Type} {F : Fault → Prop} {R : St V → Prop} {Q : α → Prop} {Q' : β → Prop} {x : Out V α}
    {g : α → Out V β} (h : x.Sat F R Q) (hg : ∀ a, Q a → (g a).Sat F R Q') : (x.bind g).Sat F R Q' := by
  cases x with
  | bad f => exact h
  | ret e s => exact h
  | ok a => exact hg a h

/-- Everything about a variable but its values and `ndimen`. -/
def shape {V} (v : Var V) : List Char × List (List Char) × Bool × Nat × Ty × Nat :=
  (v.key, v.dims, v.priv, v.size, v.type, v.vals.length)

/-- What reading `text` keeps of the state. -/
structure Kept {V} (text : List Char) (t s : St V) : Prop where
  dims : s.dims = t.dims
  now : s.now = t.now
  shapes : s.vars.map shape = t.vars.map shape
  other : ∀ n, ¬ n <:+: text → find s.vars n = find t.vars n

def Room {V} (t : St V) : Prop := ∀ w ∈ t.vars, w.size ≤ w.vals.length

theorem Kept.room {V} {text : List Char} {t s : St V} (h : Kept text t s) (hr : Room t) : Room s := by
  intro w hw
  have : shape w ∈ t.vars.map shape := by rw [← h.shapes]; exact List.mem_map.2 ⟨w, hw, rfl⟩
  obtain ⟨v, hv, he⟩ := List.mem_map.1 this
  have := hr v hv
  simp only [shape, Prod.mk.injEq] at he
  omega

theorem Kept.update {V} {text : List Char} {t s : St V} (h : Kept text t s) {key : List Char} (hk : key <:+: text)
    (f : Var V → Var V) (hf : ∀ v, shape (f v) = shape v) : Kept text t { s with vars := update key f s.vars } := by
  have hkey : ∀ v, (f v).key = v.key := fun v => by have := hf v; simp only [shape, Prod.mk.injEq] at this; exact this.1
  refine ⟨h.dims, h.now, ?_, ?_⟩
  · rw [← h.shapes]
    show (VarFile.update key f s.vars).map shape = _
    induction s.vars with
    | nil => rfl
    | cons p r ih =>
      simp only [VarFile.update]
      split
      · simp [hf]
      · simp [ih]
  · intro n hn
    show find (VarFile.update key f s.vars) n = _
    rw [find_update key f hkey]
    split
    · rename_i he; exact absurd (he ▸ hk) hn
    · exact h.other n hn

/-- Faults that cannot happen. -/
def NoFault {V} (t : St V) (f : Fault) : Prop := f ≠ .fuel ∧ (Room t → f ≠ .storage)

section
variable {V : Type} {text : List Char} {t : St V}

theorem must_in {num n : Nat} (hn : 2 ≤ num) {s : St V} (hk : Kept text t s) {st : Stream} (h : In text n st) (e : Nat) :
    (must num e s st).Sat (NoFault t) (Kept text t) fun r => 0 < n ∧ r.1 <:+: text ∧ In text (n - 1) r.2 := by
  unfold must
  cases hg : fgets num st with
  | none => exact hk
  | some r => exact fgets_in hn h hg

theorem toDim_in {s : St V} (hk : Kept text t s) : ∀ (fuel : Nat) (st : Stream) (n : Nat), In text n st → n + 1 ≤ fuel →
    (toDim s fuel st).Sat (NoFault t) (Kept text t) fun r => 0 < n ∧ In text (n - 1) r.2
  | 0, _, n, _, hf => absurd hf (by omega)
  | fuel + 1, st, n, h, hf => by
    rw [toDim]
    refine (must_in (by decide) hk h 0).bind ?_
    rintro ⟨l, st'⟩ ⟨h0, _, h2⟩
    simp only []
    split
    · exact ⟨h0, h2⟩
    · split
      · exact ⟨h0, h2⟩
      · have := toDim_in hk fuel st' (n - 1) h2 (by omega)
        revert this
        generalize toDim s fuel st' = o
        intro this
        cases o with
        | bad f => exact this
        | ret e s => exact this
        | ok a => exact ⟨h0, this.2.mono (by omega)⟩

theorem toVar_in {s : St V} (hk : Kept text t s) : ∀ (fuel : Nat) (st : Stream) (n : Nat), In text n st → n + 1 ≤ fuel →
    (toVar s fuel st).Sat (NoFault t) (Kept text t) fun r => 0 < n ∧ In text (n - 1) r
  | 0, _, n, _, hf => absurd hf (by omega)
  | fuel + 1, st, n, h, hf => by
    rw [toVar]
    refine (must_in (by decide) hk h 0).bind ?_
    rintro ⟨l, st'⟩ ⟨h0, _, h2⟩
    simp only []
    split
    · exact ⟨h0, h2⟩
    · have := toVar_in hk fuel st' (n - 1) h2 (by omega)
      revert this
      generalize toVar s fuel st' = o
      intro this
      cases o with
      | bad f => exact this
      | ret e s => exact this
      | ok a => exact ⟨h0, this.2.mono (by omega)⟩

theorem dimLoop_in {s : St V} (hk : Kept text t s) {fuel : Nat} : ∀ (m : Nat) (st : Stream) (n : Nat), In text n st → n + 1 ≤ m →
    n + 1 ≤ fuel → (dimLoop s fuel m st).Sat (NoFault t) (Kept text t) fun r => In text n r
  | 0, _, n, _, hf, _ => absurd hf (by omega)
  | m + 1, st, n, h, hm, hf => by
    rw [dimLoop]
    split
    · exact h
    refine (toDim_in hk fuel st n h hf).bind ?_
    rintro ⟨b, st1⟩ ⟨h0, h1⟩
    simp only []
    split
    · exact h1.mono (by omega)
    refine (must_in (by decide) hk h1 1).bind ?_
    rintro ⟨k, st2⟩ ⟨_, _, h2⟩
    simp only []
    split
    · exact hk
    refine (must_in (by decide) hk h2 1).bind ?_
    rintro ⟨l, st3⟩ ⟨_, _, h3⟩
    simp only []
    split
    · exact hk
    · have := dimLoop_in hk (fuel := fuel) m st3 (n - 1 - 1 - 1) h3 (by omega) (by omega)
      revert this
      generalize dimLoop s fuel m st3 = o
      intro this
      cases o with
      | bad f => exact this
      | ret e s => exact this
      | ok a => exact In.mono this (by omega)

theorem dimNames_in {s : St V} (hk : Kept text t s) (dims : List (List Char)) : ∀ (k i : Nat) (st : Stream) (n : Nat), In text n st →
    (dimNames s dims k i st).Sat (NoFault t) (Kept text t) fun r => In text n r
  | 0, _, _, _, h => h
  | k + 1, i, st, n, h => by
    rw [dimNames]
    refine (must_in (by decide) hk h 1).bind ?_
    rintro ⟨l, st1⟩ ⟨_, _, h1⟩
    simp only []
    have h1' : In text n st1 := h1.mono (by omega)
    split
    · exact dimNames_in hk dims k (i + 1) st1 n h1'
    split
    · exact ⟨by decide, fun _ => by decide⟩
    split
    · exact hk
    · exact dimNames_in hk dims k (i + 1) st1 n h1'

theorem values_in (conv : List Char → V) {key : List Char} (hkey : key <:+: text) : ∀ (k i : Nat) (s : St V) (st : Stream) (n : Nat),
    Kept text t s → In text n st → (∃ v, find s.vars key = some v ∧ i + k = v.size) →
    (values conv key k i s st).Sat (NoFault t) (Kept text t) fun r => Kept text t r.1 ∧ In text n r.2
  | 0, _, _, _, _, hk, h, _ => ⟨hk, h⟩
  | k + 1, i, s, st, n, hk, h, ⟨v, hv, hs⟩ => by
    rw [values]
    refine (must_in (by decide) hk h 1).bind ?_
    rintro ⟨l, st1⟩ ⟨_, _, h1⟩
    simp only [hv]
    split
    · refine values_in conv hkey k (i + 1) _ st1 n (hk.update hkey _ (fun v => by simp [shape])) (h1.mono (by omega)) ?_
      refine ⟨{ v with vals := v.vals.set i (conv l) }, ?_, ?_⟩
      · show find (VarFile.update key (fun v => { v with vals := v.vals.set i (conv l) }) s.vars) key = _
        rw [find_update key (fun v => { v with vals := v.vals.set i (conv l) }) (fun _ => rfl), if_pos rfl, hv]; rfl
      · show i + 1 + k = v.size
        omega
    · rename_i hlt
      refine ⟨by decide, fun hr => ?_⟩
      have := hk.room hr v (find_mem hv).1
      exfalso; omega

theorem readVar_in (conv : Ty → List Char → V) {s : St V} (hk : Kept text t s) {v : Var V} (hv : find s.vars v.key = some v)
    (hkey : v.key <:+: text) {st : Stream} {n : Nat} (h : In text n st) :
    (readVar conv s v st).Sat (NoFault t) (Kept text t) fun r => Kept text t r.1 ∧ In text n r.2 := by
  rw [readVar]
  refine (must_in (by decide) hk h 1).bind ?_
  rintro ⟨a, st1⟩ ⟨_, _, h1⟩
  simp only []
  have hk1 : Kept text t { s with vars := update v.key (fun v => { v with ndimen := atoi a }) s.vars } :=
    hk.update hkey _ fun v => rfl
  have hfind : find (update v.key (fun v => { v with ndimen := atoi a }) s.vars) v.key = some { v with ndimen := atoi a } := by
    rw [find_update v.key (fun v => { v with ndimen := atoi a }) (fun _ => rfl), if_pos rfl, hv]; rfl
  split
  · exact hk1
  refine (dimNames_in hk1 v.dims _ 0 st1 n (h1.mono (by omega))).bind ?_
  intro st2 h2
  refine (must_in (by decide) hk1 h2 1).bind ?_
  rintro ⟨b, st3⟩ ⟨_, _, h3⟩
  simp only []
  split
  · exact hk1
  refine (must_in (by decide) hk1 h3 1).bind ?_
  rintro ⟨c, st4⟩ ⟨_, _, h4⟩
  simp only []
  split
  · exact hk1
  split
  · exact hk1
  exact values_in (conv v.type) hkey v.size 0 _ st4 n hk1 (h4.mono (by omega)) ⟨_, hfind, by simp⟩

theorem varLoop_in (conv : Ty → List Char → V) {fuel : Nat} : ∀ (m : Nat) (s : St V) (st : Stream) (n : Nat), Kept text t s →
    In text n st → n + 1 ≤ m → n + 1 ≤ fuel →
    (varLoop conv fuel m s st).Sat (NoFault t) (Kept text t) fun _ => False
  | 0, _, _, n, _, _, hf, _ => absurd hf (by omega)
  | m + 1, s, st, n, hk, h, hm, hf => by
    rw [varLoop]
    split
    · exact hk
    refine (toVar_in hk fuel st n h hf).bind ?_
    rintro st1 ⟨h0, h1⟩
    refine (must_in (by decide) hk h1 1).bind ?_
    rintro ⟨k, st2⟩ ⟨_, hin, h2⟩
    simp only []
    split
    · exact varLoop_in conv m s st2 (n - 1 - 1) hk h2 (by omega) (by omega)
    · rename_i v hv
      have he := (find_mem hv).2
      refine (readVar_in conv hk (by rw [he]; exact hv) (by rw [he]; exact (List.dropLast_prefix k).isInfix.trans hin) h2).bind ?_
      rintro ⟨s', st3⟩ ⟨hk', h3⟩
      exact varLoop_in conv m s' st3 (n - 1 - 1) hk' h3 (by omega) (by omega)

theorem dropTo_in (n : Nat) (l : List Char) : (dropTo n l : Out V (List Char)).Sat (NoFault t) (Kept text t) fun _ => True := by
  unfold dropTo
  split
  · exact ⟨by decide, fun _ => by decide⟩
  · trivial

end

theorem read_in {V} (conv : Ty → List Char → V) (t : St V) (text : List Char) :
    (read conv t (some text)).Sat (NoFault t) (Kept text t) fun _ => False := by
  have hk : ∀ (i : List Char) (k : Int) (d x : V), Kept text t { t with info := i, nstep := k, delta := d, next := x } :=
    fun i k d x => ⟨rfl, rfl, rfl, fun _ _ => rfl⟩
  have h : In text text.length (openText text) := ⟨List.suffix_refl _, Nat.le_refl _⟩
  unfold read
  simp only []
  refine (must_in (by decide) (hk t.info t.nstep t.delta t.next) h 0).bind ?_
  rintro ⟨a, st1⟩ ⟨_, _, h1⟩
  simp only []
  refine (must_in (by decide) (hk a t.nstep t.delta t.next) h1 0).bind ?_
  rintro ⟨b, st2⟩ ⟨_, _, h2⟩
  simp only []
  refine (dropTo_in 11 b).bind ?_
  intro nt _
  refine (must_in (by decide) (hk a (atoi nt) t.delta t.next) h2 0).bind ?_
  rintro ⟨c, st3⟩ ⟨_, _, h3⟩
  simp only []
  refine (must_in (by decide) (hk a (atoi nt) t.delta t.next) h3 0).bind ?_
  rintro ⟨d, st4⟩ ⟨_, _, h4⟩
  simp only []
  refine (dropTo_in 16 d).bind ?_
  intro dt _
  have h4' : In text text.length st4 := h4.mono (by omega)
  refine (dimLoop_in (hk a (atoi nt) (conv .double dt) (conv .double dt)) _ st4 text.length h4' (by omega) (by omega)).bind ?_
  intro st5 h5
  exact varLoop_in conv _ _ st5 text.length (hk a (atoi nt) (conv .double dt) (conv .double dt)) h5 (by omega) (by omega)

end Verif.VarFile
