import Verif.SyntaxPosSpec
import Verif.SyntaxParseLemmas

/-! # The positions of syntax errors: lemmas -/

set_option linter.unusedSectionVars false
set_option linter.unusedSimpArgs false

namespace Verif

namespace Pos

/-! ## Places -/

/-- The value is at the position. -/
def At (root : Json) (p : Nat) (j : Json) : Prop :=
  ∃ pre post, fragments root = pre ++ (fragments j ++ post) ∧ pre.length = p

/-- The items are at the position. -/
def AtItems (root : Json) (p : Nat) (l : List Json) : Prop :=
  ∃ pre post, fragments root = pre ++ (fragmentsItems l ++ post) ∧ pre.length = p

/-- The entries are at the position. -/
def AtEntries (root : Json) (p : Nat) (o : JsonObject) : Prop :=
  ∃ pre post, fragments root = pre ++ (fragmentsEntries o ++ post) ∧ pre.length = p

theorem At.root (j : Json) : At j 0 j := ⟨[], [], by simp, rfl⟩

theorem fragments_head (j : Json) : ∃ l, fragments j = .value j :: l := by
  cases j <;> exact ⟨_, by rw [fragments]⟩

theorem At.fragment {root j : Json} {p : Nat} (h : At root p j) : fragmentAt root p = some (.value j) := by
  obtain ⟨pre, post, h, rfl⟩ := h
  obtain ⟨l, hl⟩ := fragments_head j
  simp [fragmentAt, h, hl]

theorem volume_of {root : Json} {p : Nat} {f : Fragment} (h : fragmentAt root p = some f) :
    volume (codeMap root) p = .ok f.volume := by
  unfold fragmentAt at h
  simp [volume, codeMap, h, Out.ofOption]

theorem At.volume {root j : Json} {p : Nat} (h : At root p j) :
    volume (codeMap root) p = .ok (fragments j).length := volume_of h.fragment

theorem At.items {root : Json} {p : Nat} {l : List Json} (h : At root p (.array l)) : AtItems root (p + 1) l := by
  obtain ⟨pre, post, h, rfl⟩ := h
  exact ⟨pre ++ [.value (.array l)], post, by rw [h, fragments]; simp, by simp⟩

theorem At.entries {root : Json} {p : Nat} {o : JsonObject} (h : At root p (.object o)) : AtEntries root (p + 1) o := by
  obtain ⟨pre, post, h, rfl⟩ := h
  exact ⟨pre ++ [.value (.object o)], post, by rw [h, fragments]; simp, by simp⟩

theorem AtItems.head {root j : Json} {p : Nat} {l : List Json} (h : AtItems root p (j :: l)) : At root p j := by
  obtain ⟨pre, post, h, rfl⟩ := h
  exact ⟨pre, fragmentsItems l ++ post, by rw [h, fragmentsItems]; simp, rfl⟩

theorem AtItems.tail {root j : Json} {p : Nat} {l : List Json} (h : AtItems root p (j :: l)) :
    AtItems root (p + (fragments j).length) l := by
  obtain ⟨pre, post, h, rfl⟩ := h
  exact ⟨pre ++ fragments j, post, by rw [h, fragmentsItems]; simp, by simp⟩

theorem AtEntries.key {root j : Json} {k : String} {p : Nat} {o : JsonObject} (h : AtEntries root p ((k, j) :: o)) :
    fragmentAt root (p + 1) = some (.key k) := by
  obtain ⟨pre, post, h, rfl⟩ := h
  rw [fragmentAt, h, fragmentsEntries]
  simp

theorem AtEntries.value {root j : Json} {k : String} {p : Nat} {o : JsonObject} (h : AtEntries root p ((k, j) :: o)) :
    At root (p + 2) j := by
  obtain ⟨pre, post, h, rfl⟩ := h
  exact ⟨pre ++ [.entry k j, .key k], fragmentsEntries o ++ post, by rw [h, fragmentsEntries]; simp, by simp⟩

theorem AtEntries.volume {root j : Json} {k : String} {p : Nat} {o : JsonObject} (h : AtEntries root p ((k, j) :: o)) :
    volume (codeMap root) p = .ok ((fragments j).length + 2) := by
  obtain ⟨pre, post, h, rfl⟩ := h
  exact volume_of (f := .entry k j) (by rw [fragmentAt, h, fragmentsEntries]; simp)

theorem AtEntries.tail {root j : Json} {k : String} {p : Nat} {o : JsonObject} (h : AtEntries root p ((k, j) :: o)) :
    AtEntries root (p + ((fragments j).length + 2)) o := by
  obtain ⟨pre, post, h, rfl⟩ := h
  exact ⟨pre ++ .entry k j :: .key k :: fragments j, post, by rw [h, fragmentsEntries]; simp, by simp⟩

/-! ## Agreement -/

/-- Same outcome, apart from positions, and the error is true. -/
structure Agrees (lib : ParseLib) (root : Json) {α : Type} (x : Out Error α) (y : Out SyntaxError α) : Prop where
  same : x.mapErr Error.erase = y
  true : ∀ e, x = .err e → e.IsTrue lib root

section

variable {lib : ParseLib} {root : Json}

theorem Agrees.ok {α : Type} (a : α) : Agrees lib root (.ok a) (.ok a) := ⟨rfl, nofun⟩

theorem Agrees.fuel {α : Type} : Agrees lib root (.fuel : Out Error α) .fuel := ⟨rfl, nofun⟩

theorem Agrees.err {α : Type} {e : Error} (h : e.IsTrue lib root) : Agrees lib root (.err e : Out Error α) (.err e.erase) :=
  ⟨rfl, fun e' he => by injection he with he; exact he ▸ h⟩

theorem Agrees.bind {α β : Type} {x : Out Error α} {y : Out SyntaxError α} {f : α → Out Error β} {g : α → Out SyntaxError β}
    (h : Agrees lib root x y) (hf : ∀ a, x = .ok a → Agrees lib root (f a) (g a)) :
    Agrees lib root (x.bind f) (y.bind g) := by
  obtain ⟨h1, h2⟩ := h
  subst h1
  cases x with
  | ok a => exact hf a rfl
  | err e => exact .err (h2 e rfl)
  | panic => exact ⟨rfl, nofun⟩
  | fuel => exact ⟨rfl, nofun⟩

theorem Agrees.ite {α : Type} {c : Prop} [Decidable c] {x x' : Out Error α} {y y' : Out SyntaxError α} (h : Agrees lib root x y)
    (h' : ¬ c → Agrees lib root x' y') : Agrees lib root (if c then x else x') (if c then y else y') := by
  by_cases hc : c
  · rw [if_pos hc, if_pos hc]; exact h
  · rw [if_neg hc, if_neg hc]; exact h' hc

theorem Agrees.ite' {α : Type} {c : Prop} [Decidable c] {x x' : Out Error α} {y y' : Out SyntaxError α}
    (h : c → Agrees lib root x y)
    (h' : ¬ c → Agrees lib root x' y') : Agrees lib root (if c then x else x') (if c then y else y') := by
  by_cases hc : c
  · rw [if_pos hc, if_pos hc]; exact h hc
  · rw [if_neg hc, if_neg hc]; exact h' hc

/-- A step of the computation of positions, which never fails. -/
theorem Agrees.skip {α β : Type} {x : Out Error α} {a : α} {f : α → Out Error β} {y : Out SyntaxError β} (h : x = .ok a)
    (hf : Agrees lib root (f a) y) : Agrees lib root (x.bind f) y := by
  subst h; exact hf

/-- Agreement for steps of the parsing of objects, that read the members `ks`. -/
structure AgreesObj (lib : ParseLib) (root : Json) (o : JsonObject) (ks : List String) {α : Type} (x : ObjParser α)
    (y : Verif.ObjParser α) : Prop where
  agrees : ∀ u, Agrees lib root (x u) (y u)
  reads : ∀ u a u', x u = .ok (a, u') → ∀ i : Nat, u'[i]? = some true → u[i]? = some true ∧ ∀ k ∈ ks, (o.map Prod.fst)[i]? ≠ some k

theorem AgreesObj.bind' {α β : Type} {o : JsonObject} {ks ks' : List String} {x : ObjParser α} {y : Verif.ObjParser α}
    {f : α → ObjParser β} {g : α → Verif.ObjParser β} (h : AgreesObj lib root o ks x y)
    (hf : ∀ a u u', x u = .ok (a, u') → AgreesObj lib root o ks' (f a) (g a)) :
    AgreesObj lib root o (ks ++ ks') (x.bind f) (y.bind g) := by
  refine ⟨fun u => (h.agrees u).bind fun r hr => (hf r.1 u r.2 hr).agrees r.2, ?_⟩
  intro u b u'' hb i hi
  cases hx : x u with
  | ok r =>
    simp only [ObjParser.bind, hx, Out.bind_ok] at hb
    have h2 := (hf r.1 u r.2 hx).reads _ _ _ hb i hi
    have h1 := h.reads _ _ _ hx i h2.1
    refine ⟨h1.1, fun k hk => ?_⟩
    rcases List.mem_append.1 hk with hk | hk
    · exact h1.2 k hk
    · exact h2.2 k hk
  | err e => simp [ObjParser.bind, hx] at hb
  | panic => simp [ObjParser.bind, hx] at hb
  | fuel => simp [ObjParser.bind, hx] at hb

theorem AgreesObj.bind {α β : Type} {o : JsonObject} {ks ks' : List String} {x : ObjParser α} {y : Verif.ObjParser α}
    {f : α → ObjParser β} {g : α → Verif.ObjParser β} (h : AgreesObj lib root o ks x y)
    (hf : ∀ a, AgreesObj lib root o ks' (f a) (g a)) :
    AgreesObj lib root o (ks ++ ks') (x.bind f) (y.bind g) := h.bind' fun a _ _ _ => hf a

theorem AgreesObj.pure {α : Type} {o : JsonObject} (a : α) :
    AgreesObj lib root o [] (ObjParser.pure a) (Verif.ObjParser.pure a) := by
  refine ⟨fun _ => .ok _, fun u a u' h i hi => ?_⟩
  simp only [ObjParser.pure, Out.ok.injEq, Prod.mk.injEq] at h
  exact ⟨h.2 ▸ hi, by simp⟩

/-- Marking an entry as read. -/
theorem reads_set {o : JsonObject} {key : String} {u : List Bool} {n i : Nat} (hn : (o.map Prod.fst)[n]? = some key)
    (hone : ∀ i, (o.map Prod.fst)[i]? = some key → i = n) (h : (u.set n false)[i]? = some true) :
    u[i]? = some true ∧ ∀ k ∈ [key], (o.map Prod.fst)[i]? ≠ some k := by
  rw [List.getElem?_set] at h
  split at h
  · split at h <;> simp at h
  · rename_i hne
    refine ⟨h, fun k hk hi => ?_⟩
    rw [List.mem_singleton.1 hk] at hi
    exact hne (hone i hi).symm

/-- Agreement of parsers of values. -/
def AgreesVal (lib : ParseLib) (root : Json) {α : Type} (f : Parser α) (g : Json → Out SyntaxError α) : Prop :=
  ∀ p j, At root p j → Agrees lib root (f p j) (g j)

theorem unexpected_true {α : Type} {p : Nat} {j : Json} {expected : List Kind} (h : At root p j) (hk : kind j ∉ expected) :
    Agrees lib root (.err (.unexpected p expected (kind j)) : Out Error α) (.err .unexpected) :=
  .err (e := .unexpected p expected (kind j)) ⟨j, h.fragment, rfl, hk⟩

/-! ## Objects -/

theorem keyOffsets_eq {p : Nat} {o : JsonObject} (h : AtEntries root p o) :
    keyOffsets (codeMap root) p o = .ok (keyPositions p o) := by
  induction o generalizing p with
  | nil => rfl
  | cons e o ih =>
    obtain ⟨k, v⟩ := e
    rw [keyOffsets, h.volume, Out.bind_ok, ih h.tail, Out.bind_ok, keyPositions]
    rfl

theorem key_of_position {p : Nat} {o : JsonObject} (h : AtEntries root p o) {i : Nat} {q : Nat} {key : String}
    (hq : (keyPositions p o)[i]? = some q) (hk : (o.map Prod.fst)[i]? = some key) : fragmentAt root q = some (.key key) := by
  induction o generalizing p i with
  | nil => simp at hk
  | cons e o ih =>
    obtain ⟨k, v⟩ := e
    cases i with
    | zero =>
      simp only [keyPositions, List.getElem?_cons_zero, Option.some.injEq, List.map_cons] at hq hk
      subst hq hk
      exact h.key
    | succ i =>
      simp only [keyPositions, List.getElem?_cons_succ, List.map_cons] at hq hk
      exact ih h.tail hq hk

theorem keyAt {p : Nat} {o : JsonObject} (h : At root p (.object o)) {i : Nat} {q : Nat} {key : String}
    (hq : (keyPositions (p + 1) o)[i]? = some q) (hk : (o.map Prod.fst)[i]? = some key) : KeyAt root p i key q :=
  ⟨⟨o, h.fragment, hk, hq⟩, key_of_position h.entries hq hk⟩

/-- What is known of an entry found at `p`. -/
structure Found (root : Json) (p : Nat) (o : JsonObject) (key : String) (i : Nat) (e : Nat × Nat × Nat × Json) : Prop where
  le : i ≤ e.1
  name : (o.map Prod.fst)[e.1 - i]? = some key
  pos : (keyPositions p o)[e.1 - i]? = some e.2.1
  value : At root e.2.2.1 e.2.2.2
  mem : (key, e.2.2.2) ∈ o

theorem Found.cons {p : Nat} {o : JsonObject} {key k : String} {v : Json} {i : Nat} {e : Nat × Nat × Nat × Json}
    (h : Found root (p + ((fragments v).length + 2)) o key (i + 1) e) : Found root p ((k, v) :: o) key i e := by
  obtain ⟨h1, h2, h3, h4, h5⟩ := h
  have he : e.1 - i = e.1 - (i + 1) + 1 := by omega
  refine ⟨by omega, ?_, ?_, h4, List.mem_cons_of_mem _ h5⟩
  · rw [he]; simpa using h2
  · rw [he]; simpa [keyPositions, Nat.add_assoc] using h3

theorem entriesOf_eq (key : String) {p : Nat} {o : JsonObject} (h : AtEntries root p o) (i : Nat) :
    ∃ l, entriesOf (codeMap root) key i p o = .ok l ∧
      l.map (fun e => (e.1, e.2.2.2)) = Verif.entriesOf key i o ∧ (∀ e ∈ l, Found root p o key i e) ∧
      l.Pairwise (fun a b => a.1 < b.1) := by
  induction o generalizing p i with
  | nil => exact ⟨[], rfl, rfl, by simp, .nil⟩
  | cons e o ih =>
    obtain ⟨k, v⟩ := e
    obtain ⟨l, h1, h2, h3, h4⟩ := ih h.tail (i + 1)
    refine ⟨if k = key then (i, p + 1, p + 2, v) :: l else l, ?_, ?_, ?_, ?_⟩
    · rw [entriesOf, h.volume, Out.bind_ok, h1, Out.bind_ok]
    · rw [Verif.entriesOf]
      split <;> simp [h2]
    · intro e he
      split at he
      · rename_i hk
        rcases List.mem_cons.1 he with rfl | he
        · subst hk
          exact ⟨le_refl _, by simp, by simp [keyPositions], h.value, by simp⟩
        · exact (h3 e he).cons
      · exact (h3 e he).cons
    · split
      · refine List.pairwise_cons.2 ⟨fun e he => ?_, h4⟩
        have := (h3 e he).le
        simp only; omega
      · exact h4

theorem entriesOf_all (key : String) {o : JsonObject} (i n : Nat) (h : (o.map Prod.fst)[n]? = some key) :
    i + n ∈ (Verif.entriesOf key i o).map Prod.fst := by
  induction o generalizing i n with
  | nil => simp at h
  | cons e o ih =>
    obtain ⟨k, v⟩ := e
    rw [Verif.entriesOf]
    cases n with
    | zero =>
      simp only [List.map_cons, List.getElem?_cons_zero, Option.some.injEq] at h
      simp [h]
    | succ n =>
      simp only [List.map_cons, List.getElem?_cons_succ] at h
      have := ih (i + 1) n h
      rw [show i + (n + 1) = i + 1 + n by omega]
      split
      · exact List.mem_cons_of_mem _ this
      · exact this

theorem entriesOf_nil {key : String} {i : Nat} {o : JsonObject} (h : Verif.entriesOf key i o = []) : key ∉ o.map Prod.fst := by
  induction o generalizing i with
  | nil => simp
  | cons e o ih =>
    obtain ⟨k, v⟩ := e
    rw [Verif.entriesOf] at h
    split at h
    · simp at h
    · rename_i hk
      simp only [List.map_cons, List.mem_cons, not_or]
      exact ⟨fun h => hk h.symm, ih h⟩

/-- The outcome of looking for an entry. -/
inductive Unique (lib : ParseLib) (root : Json) (o : JsonObject) (key : String) :
    Out Error (Option (Nat × Nat × Json)) → Out SyntaxError (Option (Nat × Json)) → Prop
  | none (h : key ∉ o.map Prod.fst) : Unique lib root o key (.ok none) (.ok none)
  | some {i p : Nat} {v : Json} (h : At root p v) (hm : (key, v) ∈ o) (hn : (o.map Prod.fst)[i]? = some key)
      (hone : ∀ n, (o.map Prod.fst)[n]? = some key → n = i) :
    Unique lib root o key (.ok (some (i, p, v))) (.ok (some (i, v)))
  | err {p p' : Nat} (h : (Error.duplicateEntry p key p').IsTrue lib root) :
    Unique lib root o key (.err (.duplicateEntry p key p')) (.err (.duplicateEntry key))

theorem uniqueEntry_spec {p : Nat} {o : JsonObject} (h : At root p (.object o)) (key : String) :
    Unique lib root o key (uniqueEntry (codeMap root) o key p) (Verif.uniqueEntry o key) := by
  obtain ⟨l, h1, h2, h3, h4⟩ := entriesOf_eq key h.entries 0
  rw [uniqueEntry, h1, Out.bind_ok, Verif.uniqueEntry, ← h2]
  match l, h2, h3, h4 with
  | [], h2, _, _ => exact .none (entriesOf_nil (i := 0) (by simpa using h2.symm))
  | [(i, q, r, v)], h2, h3, _ =>
    have hf := h3 (i, q, r, v) (by simp)
    refine .some hf.value hf.mem (by simpa using hf.name) fun n hn => ?_
    have := entriesOf_all key 0 n hn
    rw [← h2] at this
    simpa using this
  | (i, q, r, v) :: (i', q', r', v') :: l, _, h3, h4 =>
    refine .err ⟨p, i, i', ?_, ?_, ?_⟩
    · have := (List.pairwise_cons.1 h4).1 (i', q', r', v') (by simp)
      exact this
    · have := h3 (i, q, r, v) (by simp)
      exact keyAt h (by simpa using this.pos) (by simpa using this.name)
    · have := h3 (i', q', r', v') (by simp)
      exact keyAt h (by simpa using this.pos) (by simpa using this.name)

theorem getEntry_reads (lib : ParseLib) {α : Type} {p : Nat} {o : JsonObject}
    (h : At root p (.object o)) (f : Parser α) (key : String) {u u' : List Bool} {a : Option α}
    (ha : getEntry (codeMap root) f o key p u = .ok (a, u')) {i : Nat} (hi : u'[i]? = some true) :
    u[i]? = some true ∧ ∀ k ∈ [key], (o.map Prod.fst)[i]? ≠ some k := by
  unfold getEntry at ha
  have := uniqueEntry_spec (lib := lib) h key
  generalize uniqueEntry (codeMap root) o key p = x at this ha
  generalize Verif.uniqueEntry o key = y at this
  cases this with
  | none hk =>
    simp only [Out.bind_ok, Out.ok.injEq, Prod.mk.injEq] at ha
    refine ⟨ha.2 ▸ hi, fun k hk' hi' => hk ?_⟩
    rw [List.mem_singleton.1 hk'] at hi'
    exact List.mem_of_getElem? hi'
  | @some n q v _ _ hn hone =>
    simp only [Out.bind_ok] at ha
    cases hf : f q v with
    | ok t =>
      rw [hf] at ha
      simp only [Out.bind_ok, Out.ok.injEq, Prod.mk.injEq] at ha
      exact reads_set hn hone (ha.2 ▸ hi)
    | err e => simp [hf] at ha
    | panic => simp [hf] at ha
    | fuel => simp [hf] at ha
  | err => simp at ha

/-- Whether the entry is there. -/
theorem getEntry_isSome (lib : ParseLib) {α : Type} {p : Nat} {o : JsonObject}
    (h : At root p (.object o)) (f : Parser α) (key : String) {u u' : List Bool} {a : Option α}
    (ha : getEntry (codeMap root) f o key p u = .ok (a, u')) : a.isSome = true ↔ key ∈ o.map Prod.fst := by
  unfold getEntry at ha
  have := uniqueEntry_spec (lib := lib) h key
  generalize uniqueEntry (codeMap root) o key p = x at this ha
  generalize Verif.uniqueEntry o key = y at this
  cases this with
  | none hk =>
    simp only [Out.bind_ok, Out.ok.injEq, Prod.mk.injEq] at ha
    rw [← ha.1]
    simpa using hk
  | @some n q v _ hm =>
    simp only [Out.bind_ok] at ha
    cases hf : f q v with
    | ok t =>
      rw [hf] at ha
      simp only [Out.bind_ok, Out.ok.injEq, Prod.mk.injEq] at ha
      rw [← ha.1]
      simpa using ⟨v, hm⟩
    | err e => simp [hf] at ha
    | panic => simp [hf] at ha
    | fuel => simp [hf] at ha
  | err => simp at ha

theorem requireEntry_mem (lib : ParseLib) {α : Type} {p : Nat} {o : JsonObject}
    (h : At root p (.object o)) (f : Parser α) (key : String) {u : List Bool} {r : α × List Bool}
    (ha : requireEntry (codeMap root) f o key p u = .ok r) : key ∈ o.map Prod.fst := by
  unfold requireEntry at ha
  have := uniqueEntry_spec (lib := lib) h key
  generalize uniqueEntry (codeMap root) o key p = x at this ha
  generalize Verif.uniqueEntry o key = y at this
  cases this with
  | none hk => simp at ha
  | some _ hm => exact List.mem_map_of_mem (f := Prod.fst) hm
  | err => simp at ha

theorem requireEntry_reads (lib : ParseLib) {α : Type} {p : Nat} {o : JsonObject}
    (h : At root p (.object o)) (f : Parser α) (key : String) {u u' : List Bool} {a : α}
    (ha : requireEntry (codeMap root) f o key p u = .ok (a, u')) {i : Nat} (hi : u'[i]? = some true) :
    u[i]? = some true ∧ ∀ k ∈ [key], (o.map Prod.fst)[i]? ≠ some k := by
  unfold requireEntry at ha
  have := uniqueEntry_spec (lib := lib) h key
  generalize uniqueEntry (codeMap root) o key p = x at this ha
  generalize Verif.uniqueEntry o key = y at this
  cases this with
  | none hk => simp at ha
  | @some n q v _ _ hn hone =>
    simp only [Out.bind_ok] at ha
    cases hf : f q v with
    | ok t =>
      rw [hf] at ha
      simp only [Out.bind_ok, Out.ok.injEq, Prod.mk.injEq] at ha
      exact reads_set hn hone (ha.2 ▸ hi)
    | err e => simp [hf] at ha
    | panic => simp [hf] at ha
    | fuel => simp [hf] at ha
  | err => simp at ha

theorem getEntry_agrees {α : Type} {f : Parser α} {g : Json → Out SyntaxError α} {p : Nat} {o : JsonObject}
    (h : At root p (.object o)) (hf : AgreesVal lib root f g) (key : String) :
    AgreesObj lib root o [key] (getEntry (codeMap root) f o key p) (Verif.getEntry g o key) := by
  refine ⟨fun u => ?_, fun u a u' ha i hi => ?_⟩
  rotate_left
  · exact getEntry_reads lib h f key ha hi
  unfold getEntry Verif.getEntry
  have := uniqueEntry_spec (lib := lib) h key
  generalize uniqueEntry (codeMap root) o key p = x at this ⊢
  generalize Verif.uniqueEntry o key = y at this ⊢
  cases this with
  | none => exact .ok _
  | some h' => exact (hf _ _ h').bind fun _ _ => .ok _
  | err h' => exact .err h'

theorem requireEntry_agrees {α : Type} {f : Parser α} {g : Json → Out SyntaxError α} {p : Nat} {o : JsonObject}
    (h : At root p (.object o)) (hf : AgreesVal lib root f g) (key : String) :
    AgreesObj lib root o [key] (requireEntry (codeMap root) f o key p) (Verif.requireEntry g o key) := by
  refine ⟨fun u => ?_, fun u a u' ha i hi => ?_⟩
  rotate_left
  · exact requireEntry_reads lib h f key ha hi
  unfold requireEntry Verif.requireEntry
  have := uniqueEntry_spec (lib := lib) h key
  generalize uniqueEntry (codeMap root) o key p = x at this ⊢
  generalize Verif.uniqueEntry o key = y at this ⊢
  cases this with
  | none hk => exact .err (e := .missingRequiredEntry p key) ⟨o, h.fragment, hk⟩
  | some h' => exact (hf _ _ h').bind fun _ _ => .ok _
  | err h' => exact .err h'

/-- The outcome of `require_type`. -/
inductive TypeFound (lib : ParseLib) (root : Json) (o : JsonObject) :
    Out Error (Nat × Nat × String) → Out SyntaxError (Nat × String) → Prop
  | ok {i p : Nat} {s : String} (h : At root p (.string s)) (hm : ("type", Json.string s) ∈ o)
      (hn : (o.map Prod.fst)[i]? = some "type") (hone : ∀ n, (o.map Prod.fst)[n]? = some "type" → n = i) :
    TypeFound lib root o (.ok (i, p, s)) (.ok (i, s))
  | err {e : Error} (h : e.IsTrue lib root) : TypeFound lib root o (.err e) (.err e.erase)

theorem requireType_spec {p : Nat} {o : JsonObject} (h : At root p (.object o)) :
    TypeFound lib root o (requireType (codeMap root) o p) (Verif.requireType o) := by
  unfold requireType Verif.requireType
  have := uniqueEntry_spec (lib := lib) h "type"
  generalize uniqueEntry (codeMap root) o "type" p = x at this ⊢
  generalize Verif.uniqueEntry o "type" = y at this ⊢
  cases this with
  | none hk => exact .err (e := .missingType p) ⟨o, h.fragment, hk⟩
  | @some i q v h' hm hn hone =>
    cases v with
    | string s => exact .ok h' hm hn hone
    | null => exact .err (e := .unexpected q [.string] .null) ⟨_, h'.fragment, rfl, by simp⟩
    | boolean b => exact .err (e := .unexpected q [.string] .boolean) ⟨_, h'.fragment, rfl, by simp⟩
    | number n => exact .err (e := .unexpected q [.string] .number) ⟨_, h'.fragment, rfl, by simp⟩
    | array l => exact .err (e := .unexpected q [.string] .array) ⟨_, h'.fragment, rfl, by simp⟩
    | object m => exact .err (e := .unexpected q [.string] .object) ⟨_, h'.fragment, rfl, by simp⟩
  | err h' => exact .err h'

theorem checkType_agrees {p : Nat} {o : JsonObject} (h : At root p (.object o)) (expected : String) :
    AgreesObj lib root o ["type"] (checkType (codeMap root) o expected p) (Verif.checkType o expected) := by
  unfold checkType Verif.checkType
  have := requireType_spec (lib := lib) h
  generalize requireType (codeMap root) o p = x at this ⊢
  generalize Verif.requireType o = y at this ⊢
  cases this with
  | @ok i q s h' hm hn hone =>
    simp only [Out.bind_ok]
    refine ⟨fun u => ?_, fun u a u' ha n hi => ?_⟩
    · refine .ite (.ok _) fun hs => ?_
      exact .err (e := .invalidType q [expected] s) ⟨h'.fragment, by simpa using hs⟩
    · split at ha
      · injection ha with ha
        injection ha with _ ha
        exact reads_set hn hone (ha ▸ hi)
      · cases ha
  | err h' => exact ⟨fun u => .err h', fun u a u' ha => by simp at ha⟩

theorem checkUnused_agrees {q : Nat} {all : JsonObject} (hq : At root q (.object all)) {ks : List String} (hks : MembersOf all ks)
    {v : List Bool} (hv : ∀ i : Nat, v[i]? = some true → ∀ k ∈ ks, (all.map Prod.fst)[i]? ≠ some k) (n : Nat) {ps : List Nat}
    {o : JsonObject} {u : List Bool}
    (hps : (keyPositions (q + 1) all).drop n = ps) (ho : all.drop n = o) (hu : v.drop n = u) :
    Agrees lib root (checkUnused ps o u) (Verif.checkUnused o u) := by
  have hlen : ∀ (p : Nat) (o : JsonObject), (keyPositions p o).length = o.length := by
    intro p o
    induction o generalizing p with
    | nil => rfl
    | cons e o ih => obtain ⟨k, v⟩ := e; simp [keyPositions, ih]
  induction o generalizing n ps u with
  | nil =>
    cases ps <;> cases u <;> exact .ok _
  | cons e o ih =>
    obtain ⟨k, v⟩ := e
    cases u with
    | nil => cases ps <;> exact .ok _
    | cons b u =>
      have hn : n < all.length := by
        by_contra hn
        rw [List.drop_eq_nil_of_le (by omega)] at ho
        simp at ho
      cases ps with
      | nil =>
        have := congrArg List.length hps
        simp [hlen] at this
        omega
      | cons p' ps =>
        rw [checkUnused, Verif.checkUnused]
        split
        · rename_i hb
          have hk : (all.map Prod.fst)[n]? = some k := by
            have := congrArg List.head? ho
            simp only [List.head?_drop, List.head?_cons] at this
            simp [this]
          refine .err (e := .unexpectedEntry p' k) ⟨q, n, all, ks, keyAt hq ?_ hk, hq.fragment, hks, fun hm => ?_⟩
          · have := congrArg List.head? hps
            simpa [List.head?_drop] using this
          · refine hv n ?_ k hm hk
            have := congrArg List.head? hu
            simpa [List.head?_drop, hb] using this
        · refine ih (n + 1) ?_ ?_ ?_
          · rw [← List.tail_drop, hps]; rfl
          · rw [← List.tail_drop, ho]; rfl
          · rw [← List.tail_drop, hu]; rfl

theorem runObj_agrees {α : Type} {m : ObjParser α} {m' : Verif.ObjParser α} {p : Nat} {o : JsonObject} {ks ks' : List String}
    (h : At root p (.object o)) (hks : (∃ u r, m u = .ok r) → MembersOf o ks') (hm : AgreesObj lib root o ks m m') (hsub : ∀ k ∈ ks', k ∈ ks) :
    Agrees lib root (runObj (codeMap root) o p m) (Verif.runObj o m') := by
  refine .skip (keyOffsets_eq h.entries) ((hm.agrees _).bind fun r hr => ?_)
  refine (checkUnused_agrees h (hks ⟨_, r, hr⟩) (v := r.2) ?_ 0 rfl rfl rfl).bind fun _ _ => .ok _
  exact fun i hi k hk => (hm.reads _ _ _ hr i hi).2 k (hsub k hk)

/-! ## Leaves -/

theorem parseString_agrees : AgreesVal lib root parseString Verif.parseString := by
  intro p j h
  cases j with
  | string s => exact .ok _
  | _ => exact unexpected_true h (by simp [kind])

theorem parseBool_agrees : AgreesVal lib root parseBool Verif.parseBool := by
  intro p j h
  cases j with
  | boolean s => exact .ok _
  | _ => exact unexpected_true h (by simp [kind])

theorem parseOption_agrees {α : Type} {f : Parser α} {g : Json → Out SyntaxError α} (hf : AgreesVal lib root f g) :
    AgreesVal lib root (parseOption f) (Verif.parseOption g) := by
  intro p j h
  cases j with
  | null => exact .ok _
  | _ => exact (hf _ _ h).bind fun _ _ => .ok _

theorem parseItems_agrees {α : Type} {f : Parser α} {g : Json → Out SyntaxError α} (hf : AgreesVal lib root f g) {p : Nat}
    {l : List Json} (h : AtItems root p l) : Agrees lib root (parseItems (codeMap root) f p l) (Out.mapM' g l) := by
  induction l generalizing p with
  | nil => exact .ok _
  | cons j l ih =>
    refine (hf _ _ h.head).bind fun a _ => ?_
    exact .skip h.head.volume ((ih h.tail).bind fun _ _ => .ok _)

theorem parseVec_agrees {α : Type} {f : Parser α} {g : Json → Out SyntaxError α} (hf : AgreesVal lib root f g) :
    AgreesVal lib root (parseVec (codeMap root) f) (Verif.parseVec g) := by
  intro p j h
  cases j with
  | array l => exact parseItems_agrees hf h.items
  | _ => exact unexpected_true h (by simp [kind])

theorem parseOneOrMany_agrees {α : Type} {f : Parser α} {g : Json → Out SyntaxError α} (hf : AgreesVal lib root f g) :
    AgreesVal lib root (parseOneOrMany (codeMap root) f) (Verif.parseOneOrMany g) := by
  intro p j h
  cases j with
  | array l => exact (parseItems_agrees hf h.items).bind fun _ _ => .ok _
  | _ => exact (hf _ _ h).bind fun _ _ => .ok _

/-- Agreement of parsers of keys. -/
def AgreesKey (lib : ParseLib) (root : Json) {κ : Type} (f : Nat → String → Out Error κ) (g : String → Out SyntaxError κ) : Prop :=
  ∀ p k, fragmentAt root p = some (.key k) → Agrees lib root (f p k) (g k)

theorem parseEntries_agrees {κ α : Type} {key : Nat → String → Out Error κ} {key' : String → Out SyntaxError κ} {f : Parser α}
    {g : Json → Out SyntaxError α} (hk : AgreesKey lib root key key') (hf : AgreesVal lib root f g) {p : Nat} {o : JsonObject}
    (h : AtEntries root p o) :
    Agrees lib root (parseEntries (codeMap root) key f p o) (Verif.parseEntries key' g o) := by
  induction o generalizing p with
  | nil => exact .ok _
  | cons e o ih =>
    obtain ⟨k, v⟩ := e
    refine (hk _ _ h.key).bind fun k _ => (hf _ _ h.value).bind fun a _ => ?_
    exact .skip h.volume ((ih h.tail).bind fun _ _ => .ok _)

theorem parseMap_agrees {κ α : Type} [DecidableEq κ] (le : κ → κ → Bool) {key : Nat → String → Out Error κ}
    {key' : String → Out SyntaxError κ} {f : Parser α}
    {g : Json → Out SyntaxError α} (hk : AgreesKey lib root key key') (hf : AgreesVal lib root f g) :
    AgreesVal lib root (parseMap (codeMap root) le key f) (Verif.parseMap le key' g) := by
  intro p j h
  cases j with
  | object o => exact (parseEntries_agrees hk hf h.entries).bind fun _ _ => .ok _
  | _ => exact unexpected_true h (by simp [kind])

theorem anyKey_agrees {κ : Type} (f : String → κ) : AgreesKey lib root (anyKey f) (fun k => .ok (f k)) := fun _ _ _ => .ok _

theorem parseIriString_key : AgreesKey lib root (parseIriString lib) (Verif.parseIriString lib) := by
  intro p k h
  unfold parseIriString Verif.parseIriString
  split
  · exact .ok _
  · rename_i hi
    exact .err (e := .invalidCompactIri p k) ⟨.inr h, by simpa using hi⟩

theorem parseIriString_agrees {p : Nat} {s : String} (h : At root p (.string s)) :
    Agrees lib root (parseIriString lib p s) (Verif.parseIriString lib s) := by
  unfold parseIriString Verif.parseIriString
  split
  · exact .ok _
  · rename_i hi
    exact .err (e := .invalidCompactIri p s) ⟨.inl h.fragment, by simpa using hi⟩

theorem parseIri_agrees : AgreesVal lib root (parseIri lib) (Verif.parseIri lib) := by
  intro p j h
  cases j with
  | string s => exact parseIriString_agrees h
  | _ => exact unexpected_true h (by simp [kind])

theorem parseLitType_agrees {p : Nat} {o : JsonObject} (h : At root p (.object o)) (ty : Option CompactIri) :
    AgreesObj lib root o (if ty.isSome then [] else ["language"]) (parseLitType (codeMap root) lib o p ty)
      (Verif.parseLitType lib o ty) := by
  cases ty with
  | some ty => exact .pure _
  | none =>
    refine ⟨fun u => ?_, fun u a u' ha i hi => ?_⟩
    rotate_left
    · unfold parseLitType ObjParser.bind at ha
      cases hx : requireEntry (codeMap root) parseString o "language" p u with
      | ok r =>
        simp only [hx, Out.bind_ok] at ha
        split at ha
        · simp only [Out.ok.injEq, Prod.mk.injEq] at ha
          exact requireEntry_reads lib h _ _ hx (ha.2 ▸ hi)
        · simp at ha
      | err e => simp [hx] at ha
      | panic => simp [hx] at ha
      | fuel => simp [hx] at ha
    unfold parseLitType Verif.parseLitType
    unfold ObjParser.bind Verif.ObjParser.bind requireEntry Verif.requireEntry
    have := uniqueEntry_spec (lib := lib) h "language"
    generalize uniqueEntry (codeMap root) o "language" p = x at this ⊢
    generalize Verif.uniqueEntry o "language" = y at this ⊢
    cases this with
    | none hk => exact .err (e := .missingRequiredEntry p "language") ⟨o, h.fragment, hk⟩
    | @some i q v h' hm =>
      cases v with
      | string s =>
        simp only [Out.bind_ok, parseString, Verif.parseString]
        split
        · exact .ok _
        · rename_i hl
          exact .err (e := .invalidLangTag p s) ⟨o, h.fragment, hm, by simpa using hl⟩
      | null => exact unexpected_true (j := .null) h' (by simp [kind])
      | boolean b => exact unexpected_true (j := .boolean b) h' (by simp [kind])
      | number n => exact unexpected_true (j := .number n) h' (by simp [kind])
      | array l => exact unexpected_true (j := .array l) h' (by simp [kind])
      | object m => exact unexpected_true (j := .object m) h' (by simp [kind])
    | err h' => exact .err h'

theorem parseLiteralValue_agrees {p : Nat} {o : JsonObject} (h : At root p (.object o)) :
    Agrees lib root (parseLiteralValue (codeMap root) lib p o) (Verif.parseLiteralValue lib o) := by
  by_cases ht : "type" ∈ o.map Prod.fst
  · refine runObj_agrees h (fun _ => .typedLiteral ht) (ks := ["type"] ++ ([] ++ (["value"] ++ []))) ?_ (by simp)
    refine (getEntry_agrees h parseIri_agrees _).bind' fun ty u u' hty => ?_
    have hs := (getEntry_isSome lib h _ _ hty).2 ht
    have := parseLitType_agrees (lib := lib) h ty
    rw [if_pos hs] at this
    exact this.bind fun ty => (requireEntry_agrees h parseString_agrees _).bind fun v => .pure _
  · refine runObj_agrees h (fun _ => .taggedLiteral ht) (ks := ["type"] ++ (["language"] ++ (["value"] ++ []))) ?_ (by simp)
    refine (getEntry_agrees h parseIri_agrees _).bind' fun ty u u' hty => ?_
    have hs := fun hs => ht ((getEntry_isSome lib h _ _ hty).1 hs)
    have := parseLitType_agrees (lib := lib) h ty
    rw [if_neg hs] at this
    exact this.bind fun ty => (requireEntry_agrees h parseString_agrees _).bind fun v => .pure _

theorem parsePattern_agrees : AgreesVal lib root (parsePattern (codeMap root) lib) (Verif.parsePattern lib) := by
  intro p j h
  cases j with
  | string s =>
    simp only [parsePattern, Verif.parsePattern]
    split
    · exact .ok _
    · rename_i hb
      split
      · exact .ok _
      · rename_i hi
        exact .err (e := .invalidPattern p s) ⟨h.fragment, by simpa using hb, by simpa using hi⟩
  | object o => exact parseLiteralValue_agrees h
  | _ => exact unexpected_true h (by simp [kind])

theorem parseFourth_agrees {p : Nat} {l : List Json} (h : AtItems root p l) :
    Agrees lib root (parseFourth (codeMap root) lib p l) (Verif.parseFourth lib l) := by
  cases l with
  | nil => exact .ok _
  | cons g l => exact (parsePattern_agrees _ _ h.head).bind fun _ _ => .ok _

theorem parseQuad_agrees : AgreesVal lib root (parseQuad (codeMap root) lib) (Verif.parseQuad lib) := by
  intro p j h
  cases j with
  | array l =>
    match l, h with
    | [], h => exact .err (e := .missingQuadPattern p) ⟨_, h.fragment, by simp⟩
    | [_], h => exact .err (e := .missingQuadPattern p) ⟨_, h.fragment, by simp⟩
    | [_, _], h => exact .err (e := .missingQuadPattern p) ⟨_, h.fragment, by simp⟩
    | s :: q :: o :: g, h =>
      simp only [parseQuad, Verif.parseQuad]
      split
      · rename_i hl
        exact .err (e := .tooManyQuadPatterns p) ⟨_, h.fragment, by simp; omega⟩
      · have h1 := h.items
        have h2 := h1.tail
        have h3 := h2.tail
        have h4 := h3.tail
        refine (parsePattern_agrees _ _ h1.head).bind fun s _ => .skip h1.head.volume ?_
        refine (parsePattern_agrees _ _ h2.head).bind fun q _ => .skip h2.head.volume ?_
        refine (parsePattern_agrees _ _ h3.head).bind fun o _ => .skip h3.head.volume ?_
        exact (parseFourth_agrees h4).bind fun g _ => .ok _
  | _ => exact unexpected_true h (by simp [kind])

theorem parseDataset_agrees : AgreesVal lib root (parseDataset (codeMap root) lib) (Verif.parseDataset lib) :=
  parseVec_agrees parseQuad_agrees

theorem parseResource_agrees : AgreesVal lib root (parseResource (codeMap root) lib) (Verif.parseResource lib) := by
  intro p j h
  cases j with
  | boolean b => exact .ok _
  | string s => exact .ok _
  | number n =>
    simp only [parseResource, Verif.parseResource, parseInteger, Verif.parseInteger]
    split
    · rename_i hd
      exact .err (e := .expectedInteger p n) ⟨h.fragment, hd⟩
    · cases hz : parseI64 n with
      | some z => exact .ok _
      | none =>
        refine .err (e := .integerOverflow p n) ⟨h.fragment, ?_⟩
        rintro ⟨z, hz'⟩
        rw [parseI64_ok.2 hz'] at hz
        cases hz
  | object o =>
    refine runObj_agrees h (ks' := ["type", "value"]) ?_ ((requireEntry_agrees h parseString_agrees _).bind fun v =>
      (requireEntry_agrees h parseIri_agrees _).bind fun ty => .pure _) (by simp)
    rintro ⟨u, r, hr⟩
    unfold ObjParser.bind at hr
    cases h1 : requireEntry (codeMap root) parseString o "value" p u with
    | ok r1 =>
      simp only [h1, Out.bind_ok] at hr
      cases h2 : requireEntry (codeMap root) (parseIri lib) o "type" p r1.2 with
      | ok r2 => exact .typedLiteral (requireEntry_mem lib h _ _ h2)
      | err e => simp [h2] at hr
      | panic => simp [h2] at hr
      | fuel => simp [h2] at hr
    | err e => simp [h1] at hr
    | panic => simp [h1] at hr
    | fuel => simp [h1] at hr
  | _ => exact unexpected_true h (by simp [kind])

theorem parseRegExp_agrees : AgreesVal lib root parseRegExp Verif.parseRegExp := by
  intro p j h
  cases j with
  | string s =>
    unfold parseRegExp Verif.parseRegExp
    simp only [parseString, Verif.parseString, Out.bind_ok]
    cases hr : RegExp.parse (s.toList.map RegExp.charNumber) with
    | ok e => exact .ok _
    | err e => exact .err (e := .invalidRegex p) ⟨s, h.fragment, e, hr⟩
    | panic => exact ⟨rfl, nofun⟩
    | fuel => exact ⟨rfl, nofun⟩
  | _ => exact unexpected_true h (by simp [kind])

theorem parseConst_agrees : AgreesVal lib root parseConst Verif.parseConst := by
  intro p j h
  unfold parseConst Verif.parseConst
  cases j.toValue with
  | ok v => exact .ok _
  | err e => exact nomatch e
  | panic => exact ⟨rfl, nofun⟩
  | fuel => exact ⟨rfl, nofun⟩

theorem parseHeader_agrees {p : Nat} {o : JsonObject} (h : At root p (.object o)) :
    AgreesObj lib root o ["base", "prefixes", "id", "input", "intro", "dataset", "extra"]
      (parseHeader (codeMap root) lib o p) (Verif.parseHeader lib o) := by
  refine AgreesObj.bind (ks := [_]) (getEntry_agrees h parseIri_agrees _) fun _ => ?_
  refine AgreesObj.bind (ks := [_]) (getEntry_agrees h (parseMap_agrees _ (anyKey_agrees id) parseIri_agrees) _) fun _ => ?_
  refine AgreesObj.bind (ks := [_]) (getEntry_agrees h parseIri_agrees _) fun _ => ?_
  refine AgreesObj.bind (ks := [_]) (getEntry_agrees h (parseOneOrMany_agrees parseString_agrees) _) fun _ => ?_
  refine AgreesObj.bind (ks := [_]) (getEntry_agrees h (parseOneOrMany_agrees parseString_agrees) _) fun _ => ?_
  refine AgreesObj.bind (ks := [_]) (getEntry_agrees h parseDataset_agrees _) fun _ => ?_
  refine AgreesObj.bind (ks := [_]) (getEntry_agrees h (parseMap_agrees _ parseIriString_key parseResource_agrees) _) fun _ => ?_
  exact .pure _

/-! ## Layouts -/

section

variable {rec : Nat → JsonObject → Out Error SLayout} {rec' : JsonObject → Out SyntaxError SLayout}
  (hrec : ∀ p o, At root p (.object o) → Agrees lib root (rec p o) (rec' o))

include hrec

theorem parseRef_agrees : AgreesVal lib root (parseRef lib rec) (Verif.parseRef lib rec') := by
  intro p j h
  cases j with
  | string s => exact (parseIriString_agrees h).bind fun _ _ => .ok _
  | object o => exact (hrec _ _ h).bind fun _ _ => .ok _
  | _ => exact unexpected_true h (by simp [kind])

theorem parseFormatObject_agrees (dflt : String) {p : Nat} {o : JsonObject} (h : At root p (.object o)) :
    Agrees lib root (parseFormatObject (codeMap root) lib rec dflt p o) (Verif.parseFormatObject lib rec' dflt o) := by
  exact runObj_agrees h (fun _ => .format) (
      (requireEntry_agrees h (parseRef_agrees hrec) _).bind fun _ =>
      (getEntry_agrees h (parseOneOrMany_agrees parsePattern_agrees) _).bind fun _ =>
      (getEntry_agrees h (parseOption_agrees (parseOption_agrees parsePattern_agrees)) _).bind fun _ => .pure _) (by simp)

theorem parseFormat_agrees (dflt : String) :
    AgreesVal lib root (parseFormat (codeMap root) lib rec dflt) (Verif.parseFormat lib rec' dflt) := by
  intro p j h
  cases j with
  | string s => exact (parseIriString_agrees h).bind fun _ _ => .ok _
  | object o =>
    simp only [parseFormat, Verif.parseFormat]
    split
    · exact (hrec _ _ h).bind fun _ _ => .ok _
    · exact parseFormatObject_agrees hrec dflt h
  | _ => exact unexpected_true h (by simp [kind])

theorem parseField_agrees : AgreesVal lib root (parseField (codeMap root) lib rec) (Verif.parseField lib rec') := by
  intro p j h
  cases j with
  | object o =>
    exact runObj_agrees h (fun _ => .field) (
        (getEntry_agrees h (parseOneOrMany_agrees parseString_agrees) _).bind fun _ =>
        (requireEntry_agrees h (parseFormat_agrees hrec _) _).bind fun _ =>
        (getEntry_agrees h parseDataset_agrees _).bind fun _ =>
        (getEntry_agrees h parsePattern_agrees _).bind fun _ =>
        (getEntry_agrees h parseBool_agrees _).bind fun _ => .pure _) (by simp)
  | _ => exact unexpected_true h (by simp [kind])

theorem parseVariant_agrees : AgreesVal lib root (parseVariant (codeMap root) lib rec) (Verif.parseVariant lib rec') := by
  intro p j h
  cases j with
  | object o =>
    exact runObj_agrees h (fun _ => .variant) (
        (getEntry_agrees h (parseOneOrMany_agrees parseString_agrees) _).bind fun _ =>
        (requireEntry_agrees h (parseFormat_agrees hrec _) _).bind fun _ =>
        (getEntry_agrees h parseDataset_agrees _).bind fun _ => .pure _) (by simp)
  | _ => exact unexpected_true h (by simp [kind])

theorem parseItem_agrees : AgreesVal lib root (parseItem (codeMap root) lib rec) (Verif.parseItem lib rec') := by
  intro p j h
  cases j with
  | object o =>
    exact runObj_agrees h (fun _ => .item) (
        (getEntry_agrees h (parseOneOrMany_agrees parseString_agrees) _).bind fun _ =>
        (requireEntry_agrees h (parseFormat_agrees hrec _) _).bind fun _ =>
        (getEntry_agrees h parseDataset_agrees _).bind fun _ =>
        (getEntry_agrees h parsePattern_agrees _).bind fun _ => .pure _) (by simp)
  | _ => exact unexpected_true h (by simp [kind])

theorem parseNode_agrees : AgreesVal lib root (parseNode (codeMap root) lib rec) (Verif.parseNode lib rec') := by
  intro p j h
  cases j with
  | string s => exact (parseIriString_agrees h).bind fun _ _ => .ok _
  | object o =>
    simp only [parseNode, Verif.parseNode]
    split
    · exact (hrec _ _ h).bind fun _ _ => .ok _
    · exact runObj_agrees h (fun _ => .node) (
          (getEntry_agrees h parseString_agrees _).bind fun _ =>
          (getEntry_agrees h parseString_agrees _).bind fun _ =>
          (getEntry_agrees h (parseOneOrMany_agrees parseString_agrees) _).bind fun _ =>
          (requireEntry_agrees h (parseFormat_agrees hrec _) _).bind fun _ =>
          (getEntry_agrees h parseDataset_agrees _).bind fun _ => .pure _) (by simp)
  | _ => exact unexpected_true h (by simp [kind])

theorem kindParser_agrees {p q : Nat} {o : JsonObject} {ty : String} (h : At root p (.object o)) (hq : At root q (.string ty))
    (hm : ("type", Json.string ty) ∈ o) :
    Agrees lib root (kindParser (codeMap root) lib rec q ty p o) (Verif.kindParser lib rec' ty o) := by
  have hh := parseHeader_agrees (lib := lib) h
  have hl {ks : List String} (hk : (ty, ks) ∈ kindMembers) : MembersOf o (ks ++ headerMembers) := .layout hm hk
  unfold kindParser Verif.kindParser
  refine .ite' (fun hty => ?_) fun n1 => ?_
  · refine runObj_agrees h (fun _ => hl (ks := ["pattern", "resource"]) (by simp [kindMembers, hty])) ((checkType_agrees h _).bind fun _ => hh.bind fun _ =>
      (getEntry_agrees h parseRegExp_agrees _).bind fun _ => (getEntry_agrees h parsePattern_agrees _).bind fun _ => .pure _) (by simp [headerMembers])
  refine .ite' (fun hty => ?_) fun n2 => ?_
  · refine runObj_agrees h (fun _ => hl (ks := ["const"]) (by simp [kindMembers, hty])) ((checkType_agrees h _).bind fun _ => hh.bind fun _ =>
      (getEntry_agrees h parseConst_agrees _).bind fun _ => .pure _) (by simp [headerMembers])
  refine .ite' (fun hty => ?_) fun n3 => ?_
  · refine runObj_agrees h (fun _ => hl (ks := ["resource", "datatype"]) (by simp [kindMembers, hty])) ((checkType_agrees h _).bind fun _ => hh.bind fun _ =>
      (getEntry_agrees h parsePattern_agrees _).bind fun _ => (getEntry_agrees h parseIri_agrees _).bind fun _ => .pure _) (by simp [headerMembers])
  refine .ite' (fun hty => ?_) fun n4 => ?_
  · refine runObj_agrees h (fun _ => hl (ks := ["resource", "datatype"]) (by simp [kindMembers, hty])) ((checkType_agrees h _).bind fun _ => hh.bind fun _ =>
      (getEntry_agrees h parsePattern_agrees _).bind fun _ => (requireEntry_agrees h parseIri_agrees _).bind fun _ => .pure _) (by simp [headerMembers])
  refine .ite' (fun hty => ?_) fun n5 => ?_
  · refine runObj_agrees h (fun _ => hl (ks := ["resource", "datatype"]) (by simp [kindMembers, hty])) ((checkType_agrees h _).bind fun _ => hh.bind fun _ =>
      (getEntry_agrees h parsePattern_agrees _).bind fun _ => (requireEntry_agrees h parseIri_agrees _).bind fun _ => .pure _) (by simp [headerMembers])
  refine .ite' (fun hty => ?_) fun n6 => ?_
  · refine runObj_agrees h (fun _ => hl (ks := ["pattern", "resource", "datatype"]) (by simp [kindMembers, hty])) ((checkType_agrees h _).bind fun _ => hh.bind fun _ =>
      (getEntry_agrees h parseRegExp_agrees _).bind fun _ => (getEntry_agrees h parsePattern_agrees _).bind fun _ =>
      (getEntry_agrees h parseIri_agrees _).bind fun _ => .pure _) (by simp [headerMembers])
  refine .ite' (fun hty => ?_) fun n7 => ?_
  · refine runObj_agrees h (fun _ => hl (ks := ["fields"]) (by simp [kindMembers, hty])) ((checkType_agrees h _).bind fun _ =>
      (getEntry_agrees h (parseMap_agrees _ (anyKey_agrees _) (parseField_agrees hrec)) _).bind fun _ => hh.bind fun _ => .pure _) (by simp [headerMembers])
  refine .ite' (fun hty => ?_) fun n8 => ?_
  · refine runObj_agrees h (fun _ => hl (ks := ["variants"]) (by simp [kindMembers, hty])) ((checkType_agrees h _).bind fun _ => hh.bind fun _ =>
      (getEntry_agrees h (parseMap_agrees _ (anyKey_agrees _) (parseVariant_agrees hrec)) _).bind fun _ => .pure _) (by simp [headerMembers])
  refine .ite' (fun hty => ?_) fun n9 => ?_
  · refine runObj_agrees h (fun _ => hl (ks := ["node", "head", "tail"]) (by simp [kindMembers, hty])) ((checkType_agrees h _).bind fun _ => hh.bind fun _ =>
      (requireEntry_agrees h (parseNode_agrees hrec) _).bind fun _ => (getEntry_agrees h parsePattern_agrees _).bind fun _ =>
      (getEntry_agrees h parsePattern_agrees _).bind fun _ => .pure _) (by simp [headerMembers])
  refine .ite' (fun hty => ?_) fun n10 => ?_
  · refine runObj_agrees h (fun _ => hl (ks := ["item"]) (by simp [kindMembers, hty])) ((checkType_agrees h _).bind fun _ => hh.bind fun _ =>
      (requireEntry_agrees h (parseItem_agrees hrec) _).bind fun _ => .pure _) (by simp [headerMembers])
  refine .ite' (fun hty => ?_) fun n11 => ?_
  · refine runObj_agrees h (fun _ => hl (ks := ["items"]) (by simp [kindMembers, hty])) ((checkType_agrees h _).bind fun _ => hh.bind fun _ =>
      (getEntry_agrees h (parseVec_agrees (parseItem_agrees hrec)) _).bind fun _ => .pure _) (by simp [headerMembers])
  refine .ite' (fun hty => ?_) fun n12 => ?_
  · refine runObj_agrees h (fun _ => hl (ks := []) (by simp [kindMembers, hty])) ((checkType_agrees h _).bind fun _ => hh.bind fun _ => .pure _) (by simp [headerMembers])
  refine .ite' (fun hty => ?_) fun n13 => ?_
  · refine runObj_agrees h (fun _ => hl (ks := []) (by simp [kindMembers, hty])) ((checkType_agrees h _).bind fun _ => hh.bind fun _ => .pure _) (by simp [headerMembers])
  · refine .err (e := .invalidType q layoutTypes ty) ⟨hq.fragment, ?_⟩
    simp only [layoutTypes, List.mem_cons, not_or, List.not_mem_nil, not_false_eq_true, and_true]
    exact ⟨n1, n2, n3, n4, n5, n6, n7, n8, n9, n10, n11, n12, n13⟩

theorem parseObjectWith_agrees {p : Nat} {o : JsonObject} (h : At root p (.object o)) :
    Agrees lib root (parseObjectWith (codeMap root) lib rec p o) (Verif.parseObjectWith lib rec' o) := by
  unfold parseObjectWith Verif.parseObjectWith
  have := requireType_spec (lib := lib) h
  generalize requireType (codeMap root) o p = x at this ⊢
  generalize Verif.requireType o = y at this ⊢
  cases this with
  | ok h' hm => exact kindParser_agrees hrec h h' hm
  | err h' => exact .err h'

end

theorem parseLayoutObject_agrees (n : Nat) {p : Nat} {o : JsonObject} (h : At root p (.object o)) :
    Agrees lib root (parseLayoutObject (codeMap root) lib n p o) (Verif.parseLayoutObject lib n o) := by
  induction n generalizing p o with
  | zero => exact .fuel
  | succ n ih =>
    have hr : ∀ p o, At root p (.object o) →
        Agrees lib root (parseLayoutObject (codeMap root) lib n p o) (Verif.parseLayoutObject lib n o) := fun p o h => ih h
    rw [parseLayoutObject, Verif.parseLayoutObject]
    exact parseObjectWith_agrees hr h

theorem parseLayoutAt_agrees : AgreesVal lib root (parseLayoutAt (codeMap root) lib) (Verif.parseLayout lib) := by
  intro p j h
  cases j with
  | boolean b => exact .ok _
  | object o => exact parseLayoutObject_agrees _ h
  | _ => exact unexpected_true h (by simp [kind])

theorem parseLayout_agrees (lib : ParseLib) (j : Json) :
    Agrees lib j (parseLayout (codeMap j) lib j) (Verif.parseLayout lib j) := parseLayoutAt_agrees 0 j (At.root j)

end

end Pos

end Verif
