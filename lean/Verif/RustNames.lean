import Verif.RustAll

/-!
# The components of IRIs

How an IRI is made of its components, and what the functions of `iref` that the generator calls return on it.
-/

set_option linter.unusedSectionVars false
set_option linter.unusedSimpArgs false

namespace Verif.Rust

/-- The components of an IRI. RFC 3987, section 2.2. -/
structure IriParts where
  scheme : List Char
  authority : Option (List Char)
  /-- What comes before the last segment of the path, and ends with `/` if it is not empty. -/
  directory : List Char
  /-- The last segment of the path. -/
  segment : List Char
  query : Option (List Char)
  fragment : Option (List Char)

/-- The components have no delimiter of the components that follow them; a path after an authority is empty or begins with `/`, one
without authority does not begin with `//`. -/
structure IriParts.Valid (i : IriParts) : Prop where
  scheme : ∀ c ∈ i.scheme, c ≠ ':' ∧ c ≠ '#'
  authority : ∀ a, i.authority = some a → ∀ c ∈ a, c ≠ '/' ∧ c ≠ '?' ∧ c ≠ '#'
  directory : ∀ c ∈ i.directory, c ≠ '?' ∧ c ≠ '#'
  ends : i.directory = [] ∨ ∃ d, i.directory = d ++ ['/']
  segment : ∀ c ∈ i.segment, c ≠ '/' ∧ c ≠ '?' ∧ c ≠ '#'
  query : ∀ q, i.query = some q → ∀ c ∈ q, c ≠ '#'
  after : i.authority ≠ none → i.directory ++ i.segment = [] ∨ ∃ p, i.directory ++ i.segment = '/' :: p
  alone : i.authority = none → ∀ p, i.directory ++ i.segment ≠ '/' :: '/' :: p

/-- An optional component, after its delimiter. -/
def iriPart (d : List Char) : Option (List Char) → List Char
  | none => []
  | some s => d ++ s

/-- The text of the IRI. RFC 3986, section 5.3. -/
def IriParts.text (i : IriParts) : List Char :=
  i.scheme ++ ':' :: (iriPart ['/', '/'] i.authority ++ (i.directory ++ i.segment ++ (iriPart ['?'] i.query ++ iriPart ['#'] i.fragment)))

theorem dropWhile_stop {α : Type} {p : α → Bool} {l : List α} {c : α} (m : List α) (h : ∀ x ∈ l, p x = true) (hc : p c = false) :
    (l ++ c :: m).dropWhile p = c :: m := by
  induction l with
  | nil => simp [List.dropWhile_cons, hc]
  | cons a l ih =>
    have := h a (List.mem_cons_self ..)
    simp [List.dropWhile_cons, this, ih fun x hx => h x (List.mem_cons_of_mem _ hx)]

theorem dropWhile_none {α : Type} {p : α → Bool} {l : List α} (h : ∀ x ∈ l, p x = true) : l.dropWhile p = [] := by
  induction l with
  | nil => rfl
  | cons a l ih => simp [h a (List.mem_cons_self ..), ih fun x hx => h x (List.mem_cons_of_mem _ hx)]

theorem takeWhile_stop {α : Type} {p : α → Bool} {l : List α} (m : List α) (h : ∀ x ∈ l, p x = true)
    (hm : ∀ c m', m = c :: m' → p c = false) : (l ++ m).takeWhile p = l := by
  induction l with
  | nil =>
    cases m with
    | nil => rfl
    | cons c m => simp [List.takeWhile_cons, hm c m rfl]
  | cons a l ih =>
    have := h a (List.mem_cons_self ..)
    simp [List.takeWhile_cons, this, ih fun x hx => h x (List.mem_cons_of_mem _ hx)]

theorem fragment_text {i : IriParts} (h : i.Valid) : fragment i.text = i.fragment := by
  have hn : ∀ c ∈ i.scheme ++ ':' :: (iriPart ['/', '/'] i.authority ++ (i.directory ++ i.segment ++ iriPart ['?'] i.query)),
      (c != '#') = true := by
    intro c hc
    simp only [List.mem_append, List.mem_cons] at hc
    rw [bne_iff_ne]
    rcases hc with hc | rfl | hc | (hc | hc) | hc
    · exact (h.scheme c hc).2
    · decide
    · cases ha : i.authority with
      | none => simp [ha, iriPart] at hc
      | some a =>
        simp only [ha, iriPart, List.cons_append, List.nil_append, List.mem_cons] at hc
        rcases hc with rfl | rfl | hc
        · decide
        · decide
        · exact (h.authority a ha c hc).2.2
    · exact (h.directory c hc).2
    · exact (h.segment c hc).2.2
    · cases hq : i.query with
      | none => simp [hq, iriPart] at hc
      | some q =>
        simp only [hq, iriPart, List.cons_append, List.nil_append, List.mem_cons] at hc
        rcases hc with rfl | hc
        · decide
        · exact h.query q hq c hc
  cases hf : i.fragment with
  | none =>
    have : i.text = i.scheme ++ ':' :: (iriPart ['/', '/'] i.authority ++ (i.directory ++ i.segment ++ iriPart ['?'] i.query)) := by
      simp [IriParts.text, hf, iriPart]
    rw [fragment, this, dropWhile_none hn]
  | some f =>
    have : i.text = (i.scheme ++ ':' :: (iriPart ['/', '/'] i.authority ++ (i.directory ++ i.segment ++ iriPart ['?'] i.query))) ++
        '#' :: f := by
      simp [IriParts.text, hf, iriPart]
    rw [fragment, this, dropWhile_stop f hn (by decide)]

theorem path_text {i : IriParts} (h : i.Valid) : path i.text = i.directory ++ i.segment := by
  have hs : (i.text.dropWhile (· != ':')).drop 1 =
      iriPart ['/', '/'] i.authority ++ (i.directory ++ i.segment ++ (iriPart ['?'] i.query ++ iriPart ['#'] i.fragment)) := by
    rw [IriParts.text, dropWhile_stop _ (fun c hc => by simpa using (h.scheme c hc).1) (by decide)]
    rfl
  have htail : ∀ c m', iriPart ['?'] i.query ++ iriPart ['#'] i.fragment = c :: m' → c = '?' ∨ c = '#' := by
    intro c m' e
    cases hq : i.query <;> cases hf : i.fragment <;> simp [hq, hf, iriPart] at e
    · exact .inr e.1.symm
    · exact .inl e.1.symm
    · exact .inl e.1.symm
  have hp : ∀ c ∈ i.directory ++ i.segment, (c != '?' && c != '#') = true := by
    intro c hc
    rcases List.mem_append.1 hc with hc | hc
    · simpa using h.directory c hc
    · simpa using (h.segment c hc).2
  have take : (i.directory ++ i.segment ++ (iriPart ['?'] i.query ++ iriPart ['#'] i.fragment)).takeWhile
      (fun c => c != '?' && c != '#') = i.directory ++ i.segment :=
    takeWhile_stop _ hp fun c m' e => by rcases htail c m' e with rfl | rfl <;> decide
  rw [path, hs]
  cases ha : i.authority with
  | none =>
    have : ∀ r, i.directory ++ i.segment ++ (iriPart ['?'] i.query ++ iriPart ['#'] i.fragment) ≠ '/' :: '/' :: r := by
      intro r e
      have hal := h.alone ha
      generalize i.directory ++ i.segment = p at *
      match p, hal with
      | [], _ => rcases htail _ _ (by simpa using e) with h | h <;> exact absurd h (by decide)
      | [x], _ =>
        simp only [List.cons_append, List.nil_append, List.cons.injEq] at e
        rcases htail _ _ e.2 with h | h <;> exact absurd h (by decide)
      | x :: y :: p, hal =>
        simp only [List.cons_append, List.cons.injEq] at e
        exact hal p (by rw [e.1, e.2.1])
    simp only [iriPart, List.nil_append]
    split
    · next rest e => exact absurd e (this rest)
    · exact take
  | some a =>
    have hau := h.authority a ha
    have haf := h.after (by simp [ha])
    have drop : (a ++ (i.directory ++ i.segment ++ (iriPart ['?'] i.query ++ iriPart ['#'] i.fragment))).dropWhile
        (fun c => c != '/' && c != '?' && c != '#') =
        i.directory ++ i.segment ++ (iriPart ['?'] i.query ++ iriPart ['#'] i.fragment) := by
      have hall : ∀ c ∈ a, (c != '/' && c != '?' && c != '#') = true := by
        intro c hc
        have := hau c hc
        simp [this]
      cases hr : i.directory ++ i.segment ++ (iriPart ['?'] i.query ++ iriPart ['#'] i.fragment) with
      | nil => rw [List.append_nil]; exact dropWhile_none hall
      | cons c m =>
        refine dropWhile_stop m hall ?_
        rcases haf with e | ⟨p, e⟩
        · rw [e, List.nil_append] at hr
          rcases htail c m hr with rfl | rfl <;> decide
        · rw [e, List.cons_append] at hr
          cases hr
          decide
    simp only [iriPart, List.cons_append, List.nil_append] at drop take ⊢
    rw [drop, take]

theorem lastSegment_text {i : IriParts} (h : i.Valid) :
    lastSegment (i.directory ++ i.segment) = if i.directory ++ i.segment = [] then none else some i.segment := by
  have hr : ((i.directory ++ i.segment).reverse.takeWhile (· != '/')).reverse = i.segment := by
    rw [List.reverse_append, takeWhile_stop, List.reverse_reverse]
    · intro c hc
      simpa using (h.segment c (List.mem_reverse.1 hc)).1
    · intro c m e
      rcases h.ends with hd | ⟨d, hd⟩
      · simp [hd] at e
      · simp [hd] at e
        simp [e.1.symm]
  simp only [lastSegment, hr, List.isEmpty_iff]

end Verif.Rust
