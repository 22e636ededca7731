import Verif.Basic
import Verif.Nfa
import Verif.DetOps
import Mathlib.Order.Nat

/-!
# Regular expressions

Models `layouts/src/abs/regexp.rs`. Characters are numbered as in `Verif/AutomatonDef.lean`; the number of a character
before the surrogates is its code point. A string is the list of its characters.
-/

set_option linter.unusedSectionVars false

namespace Verif

/-- `RegExp`. `layouts/src/abs/regexp.rs` L23-43. -/
inductive RegExp where
  | any
  | set (s : RangeSet)
  | seq (es : List RegExp)
  | rep (e : RegExp) (min max : Nat)
  | union (es : List RegExp)

namespace RegExp

/-- `u32::MAX`: as the second bound of a repetition, it stands for "unbounded". -/
def u32Max : Nat := 4294967295

example : u32Max = 2 ^ 32 - 1 := rfl

/-- `empty`. `layouts/src/abs/regexp.rs` L46-48. -/
def empty : RegExp := .seq []

/-- `push`. `layouts/src/abs/regexp.rs` L54-69. -/
def push (self e : RegExp) : RegExp :=
  match self with
  | .seq [] => e
  | .seq (x :: xs) => .seq ((x :: xs) ++ [e])
  | .union [] => e
  | item => .seq [item, e]

/-- `is_empty`. `layouts/src/abs/regexp.rs` L104-112. -/
def isEmpty : RegExp → Bool
  | .any => false
  | .set s => List.isEmpty s
  | .seq es => allEmpty es
  | .union es => allEmpty es
  | .rep r min max => r.isEmpty || (min == 0 && max == 0)
where
  /-- `iter().all(Self::is_empty)`. -/
  allEmpty : List RegExp → Bool
    | [] => true
    | e :: es => e.isEmpty && allEmpty es

/-- `simplified`. `layouts/src/abs/regexp.rs` L76-102. -/
def simplified : RegExp → RegExp
  | .any => .any
  | .set s => .set s
  | .seq es => .seq (filterSimplified es)
  | .union es =>
    match es with
    | [e] => e.simplified
    | es => .union (mapSimplified es)
  | .rep e min max => .rep e.simplified min max
where
  /-- The loop of L81-90. -/
  filterSimplified : List RegExp → List RegExp
    | [] => []
    | e :: es => if e.isEmpty then filterSimplified es else e.simplified :: filterSimplified es
  /-- `into_iter().map(Self::simplified)`. L97. -/
  mapSimplified : List RegExp → List RegExp
    | [] => []
    | e :: es => e.simplified :: mapSimplified es

/-- `is_simple`. `layouts/src/abs/regexp.rs` L114-116. -/
def isSimple : RegExp → Bool
  | .any => true
  | .set _ => true
  | .seq _ => true
  | _ => false

/-- `is_singleton`. `layouts/src/abs/regexp.rs` L119-127. -/
def isSingleton : RegExp → Bool
  | .any => false
  | .set s => RangeSet.len s == 1
  | .seq es => allSingleton es
  | .rep e min max => min == max && e.isSingleton
  | .union es =>
    match es with
    | [e] => e.isSingleton
    | _ => false
where
  /-- `iter().all(Self::is_singleton)`. -/
  allSingleton : List RegExp → Bool
    | [] => true
    | e :: es => e.isSingleton && allSingleton es

/-- `build_singleton`: the characters that are pushed. `layouts/src/abs/regexp.rs` L129-141. -/
def buildSingleton : RegExp → Out Empty (List Nat)
  | .any => .panic
  | .set s =>
    match s with
    | [] => .panic
    | r :: _ => if r.isEmpty then .panic else .ok [r.lo]
  | .seq es => concat es
  | .rep e _ _ => e.buildSingleton
  | .union es =>
    match es with
    | [] => .panic
    | e :: _ => e.buildSingleton
where
  /-- The loop of L133-137. -/
  concat : List RegExp → Out Empty (List Nat)
    | [] => .ok []
    | e :: es => do
      let s ← e.buildSingleton
      let t ← concat es
      Out.ok (s ++ t)

/-- `as_singleton`. `layouts/src/abs/regexp.rs` L143-151. -/
def asSingleton (e : RegExp) : Out Empty (Option (List Nat)) :=
  if e.isSingleton then do
    let s ← e.buildSingleton
    Out.ok (some s)
  else .ok none

/-! ## Compilation -/

/-- `automaton` and the counter of `new_state`. -/
abbrev BuildState := Nat × Nfa Nat

/-- `new_state`. `layouts/src/abs/regexp.rs` L239-244. -/
def newState (s : BuildState) : Nat × BuildState := (s.1, s.1 + 1, s.2)

/-- `automaton.add`. -/
def addEdge (s : BuildState) (source : Nat) (label : Option RangeSet) (target : Nat) : BuildState :=
  (s.1, s.2.add source label target)

/-- `build_repeat_into`, for `min = 0` and a bound `max` that is not `u32::MAX`. `layouts/src/abs/regexp.rs` L313-315,
L326-331. The function that builds the repeated expression is a parameter. -/
def buildUpTo (into : BuildState → (Nat × Nat) × BuildState) : Nat → BuildState → (Nat × Nat) × BuildState
  | 0, s =>
    let (a, s) := newState s
    ((a, a), s)
  | max + 1, s =>
    let ((a, b), s) := into s
    let ((c, d), s) := buildUpTo into max s
    let s := addEdge s a none d
    let s := addEdge s b none c
    ((a, d), s)

/-- `build_repeat_into`, for `min = 0` and `max = u32::MAX`. `layouts/src/abs/regexp.rs` L332-337. -/
def buildStar (into : BuildState → (Nat × Nat) × BuildState) (s : BuildState) : (Nat × Nat) × BuildState :=
  let ((a, b), s) := into s
  let s := addEdge s a none b
  let s := addEdge s b none a
  ((a, b), s)

/-- `build_repeat_into`. `layouts/src/abs/regexp.rs` L306-338. -/
def buildRepeat (into : BuildState → (Nat × Nat) × BuildState) : Nat → Nat → BuildState → (Nat × Nat) × BuildState
  | _, 0, s =>
    let (a, s) := newState s
    ((a, a), s)
  | 0, max + 1, s => if max + 1 < u32Max then buildUpTo into (max + 1) s else buildStar into s
  | min + 1, max + 1, s =>
    let ((a, b), s) := into s
    let ((c, d), s) := buildRepeat into min (if max + 1 < u32Max then max else u32Max) s
    let s := addEdge s b none c
    ((a, d), s)

/-- The set of all characters, as built by `build_into`. `layouts/src/abs/regexp.rs` L261-263. -/
def anySet : RangeSet := RangeSet.insert (RangeSet.insert [] ⟨0, 0xd7ff⟩) ⟨0xd800, lastChar⟩

/-- `build_into`. `layouts/src/abs/regexp.rs` L254-304. -/
def buildInto : RegExp → BuildState → (Nat × Nat) × BuildState
  | .any, s =>
    let (a, s) := newState s
    let (b, s) := newState s
    ((a, b), addEdge s a (some anySet) b)
  | .rep e min max, s => buildRepeat e.buildInto min max s
  | .seq es, s =>
    let (a, s) := newState s
    let (a, s) := buildSeq es a s
    let (b, s) := newState s
    ((a, b), addEdge s a none b)
  | .set charset, s =>
    let (a, s) := newState s
    let (b, s) := newState s
    ((a, b), addEdge s a (some charset) b)
  | .union es, s =>
    let (a, s) := newState s
    let (b, s) := newState s
    ((a, b), buildUnion es a b s)
where
  /-- The loop of L274-278: the variable `a` is reassigned. -/
  buildSeq : List RegExp → Nat → BuildState → Nat × BuildState
    | [], a, s => (a, s)
    | e :: es, a, s =>
      let ((ea, eb), s) := e.buildInto s
      buildSeq es eb (addEdge s a none ea)
  /-- The loop of L296-300. -/
  buildUnion : List RegExp → Nat → Nat → BuildState → BuildState
    | [], _, _, s => s
    | e :: es, a, b, s =>
      let ((ea, eb), s) := e.buildInto s
      buildUnion es a b (addEdge (addEdge s a none ea) eb none b)

/-- `build_non_deterministic`. `layouts/src/abs/regexp.rs` L236-252. The assertion holds, as a final state is added. -/
def buildNfa (e : RegExp) : Nfa Nat :=
  let ((a, b), s) := e.buildInto (0, Nfa.new)
  (s.2.addInitial a).addFinal b

/-- `build`. `layouts/src/abs/regexp.rs` L220-234. With `debug` (a build with debug assertions), the assertion of L223 is
checked. `fuel` is that of `determinize`. -/
def build (debug : Bool) (fuel : Nat) (e : RegExp) : Out Empty (DetAut Nat CharRange) :=
  match e.buildNfa.determinize fuel with
  | none => .fuel
  | some dt => if debug && dt.finals.isEmpty then .panic else .ok (dt.map (fun n _ => (n, n + 1)) 0 id)

/-! ## Parsing -/

/-- `ParseError`. `layouts/src/abs/regexp.rs` L341-354. -/
inductive ParseError where
  | unmatchedClosingParenthesis
  | missingClosingParenthesis
  | incompleteEscapeSequence
  | incompleteCharacterSet
  deriving DecidableEq, Repr

/-- The set with one character (`RangeSet::new`, `insert`). -/
def single (c : Nat) : RangeSet := RangeSet.insert [] ⟨c, c⟩

/-- The character denoted by an escape sequence. `layouts/src/abs/regexp.rs` L422-433. -/
def unescape (c : Nat) : Nat :=
  if c = '0'.toNat then 0
  else if c = 'a'.toNat then 7
  else if c = 'b'.toNat then 8
  else if c = 't'.toNat then 9
  else if c = 'n'.toNat then 10
  else if c = 'v'.toNat then 11
  else if c = 'f'.toNat then 12
  else if c = 'r'.toNat then 13
  else if c = 'e'.toNat then 27
  else c

/-- `State`, with the value of `range_start` when there is one. `layouts/src/abs/regexp.rs` L358-371. In the states `Start`
and `RangeStart`, `range_start` is `None`; in the other two it is `Some`. -/
inductive CharsetState where
  | start
  | rangeStart
  | rangeDashOrStart (c : Nat)
  | rangeEnd (c : Nat)
  deriving DecidableEq, Repr

/-- `parse_charset`. `layouts/src/abs/regexp.rs` L356-418. Returns the characters that remain. -/
def parseCharset (st : CharsetState) (negate : Bool) (s : RangeSet) : List Nat → Except ParseError (RangeSet × List Nat)
  | [] => .error .incompleteCharacterSet
  | c :: cs =>
    match st with
    | .rangeEnd start =>
      if c = '\\'.toNat then
        match cs with
        | [] => .error .incompleteEscapeSequence
        | c :: cs => parseCharset .rangeStart negate (RangeSet.insert s ⟨start, unescape c⟩) cs
      else parseCharset .rangeStart negate (RangeSet.insert s ⟨start, c⟩) cs
    | .rangeDashOrStart start =>
      if c = '-'.toNat then parseCharset (.rangeEnd start) negate s cs
      else if c = ']'.toNat then
        let s := RangeSet.insert s ⟨start, start⟩
        .ok (if negate then s.complement else s, cs)
      else if c = '\\'.toNat then
        match cs with
        | [] => .error .incompleteEscapeSequence
        | c :: cs => parseCharset (.rangeDashOrStart (unescape c)) negate (RangeSet.insert s ⟨start, start⟩) cs
      else parseCharset (.rangeDashOrStart c) negate (RangeSet.insert s ⟨start, start⟩) cs
    | st =>
      if c = '^'.toNat ∧ st = .start then parseCharset .rangeStart true s cs
      else if c = ']'.toNat then .ok (if negate then s.complement else s, cs)
      else if c = '\\'.toNat then
        match cs with
        | [] => .error .incompleteEscapeSequence
        | c :: cs => parseCharset (.rangeDashOrStart (unescape c)) negate s cs
      else parseCharset (.rangeDashOrStart c) negate s cs

/-- The alternatives of a group, the last one first: `options`. -/
abbrev Options := List RegExp

/-- `options.last_mut().unwrap()` is changed by `f`. -/
def Options.modifyLast (f : RegExp → RegExp) : Options → Out ParseError Options
  | [] => .panic
  | e :: es => .ok (f e :: es)

/-- `stack.last_mut().unwrap()`, whose last alternative is changed by `f`. The stack is a list, its top first. -/
def modifyTop (f : RegExp → RegExp) : List Options → Out ParseError (List Options)
  | [] => .panic
  | os :: st => do
    let os ← os.modifyLast f
    Out.ok (os :: st)

/-- `RegExp::Union(options).simplified()`. -/
def Options.close (os : Options) : RegExp := (RegExp.union os.reverse).simplified

/-- The main loop of `parse`. `layouts/src/abs/regexp.rs` L164-211. -/
def parseLoop : Nat → List Options → List Nat → Out ParseError (List Options)
  | _, st, [] => .ok st
  | 0, _, _ :: _ => .fuel
  | fuel + 1, st, c :: cs =>
    if c = '('.toNat then parseLoop fuel ([empty] :: st) cs
    else if c = ')'.toNat then
      match st with
      | [] => .panic
      | os :: st =>
        if st.isEmpty then .err .unmatchedClosingParenthesis
        else do
          let st ← modifyTop (fun e => e.push os.close) st
          parseLoop fuel st cs
    else if c = '|'.toNat then
      match st with
      | [] => .panic
      | os :: st => parseLoop fuel ((empty :: os) :: st) cs
    else if c = '['.toNat then
      match parseCharset .start false [] cs with
      | .error e => .err e
      | .ok (s, cs) => do
        let st ← modifyTop (fun e => e.push (.set s)) st
        parseLoop fuel st cs
    else if c = '\\'.toNat then
      match cs with
      | [] => .err .incompleteEscapeSequence
      | c :: cs => do
        let st ← modifyTop (fun e => e.push (.set (single (unescape c)))) st
        parseLoop fuel st cs
    else if c = '?'.toNat then do
      let st ← modifyTop (fun e => .rep e 0 1) st
      parseLoop fuel st cs
    else if c = '*'.toNat then do
      let st ← modifyTop (fun e => .rep e 0 u32Max) st
      parseLoop fuel st cs
    else if c = '+'.toNat then do
      let st ← modifyTop (fun e => .rep e 1 u32Max) st
      parseLoop fuel st cs
    else do
      let st ← modifyTop (fun e => e.push (.set (single c))) st
      parseLoop fuel st cs

/-- `parse`. `layouts/src/abs/regexp.rs` L160-218. Each iteration takes at least one character. -/
def parse (s : List Nat) : Out ParseError RegExp := do
  let st ← parseLoop s.length [[empty]] s
  match st with
  | [] => .panic
  | [os] => .ok os.close
  | _ => .err .missingClosingParenthesis

/-- `From<S>`. `layouts/src/abs/regexp.rs` L446-456. -/
def ofString (s : List Nat) : RegExp := s.foldl (fun e c => e.push (.set (single c))) empty

/-! ## Printing -/

/-- `CHAR_COUNT`. `layouts/src/abs/regexp.rs` L458. -/
def charCount : Nat := 0xd7ff + 0x10ffff - 0xe000

/-- `fmt_char`. `layouts/src/abs/regexp.rs` L558-584. -/
def fmtChar (c : Nat) : List Nat :=
  if c ∈ "()[]{}?*+-^|\\".toList.map Char.toNat then ['\\'.toNat, c]
  else if c = 0 then ['\\'.toNat, '0'.toNat]
  else if c = 7 then ['\\'.toNat, 'a'.toNat]
  else if c = 8 then ['\\'.toNat, 'b'.toNat]
  else if c = 9 then ['\\'.toNat, 't'.toNat]
  else if c = 10 then ['\\'.toNat, 'n'.toNat]
  else if c = 11 then ['\\'.toNat, 'v'.toNat]
  else if c = 12 then ['\\'.toNat, 'f'.toNat]
  else if c = 13 then ['\\'.toNat, 'r'.toNat]
  else if c = 27 then ['\\'.toNat, 'e'.toNat]
  else [c]

/-- The code point of a character. -/
def codePoint (c : Nat) : Nat := if c < 0xd800 then c else c + 0x800

/-- The number of a character: there are no characters from `0xd800` to `0xdfff`. -/
def charNumber (c : Char) : Nat := if c.toNat < 0xd800 then c.toNat else c.toNat - 0x800

/-- The character with a number. -/
def numberChar (n : Nat) : Char := Char.ofNat (codePoint n)

/-- `fmt_range`. `layouts/src/abs/regexp.rs` L543-556. -/
def fmtRange (r : CharRange) : List Nat :=
  if r.hi + 1 - r.lo = 1 then fmtChar r.lo
  else fmtChar r.lo ++ (if codePoint r.lo + 1 < codePoint r.hi then ['-'.toNat] else []) ++ fmtChar r.hi

/-- The text of a character set. `layouts/src/abs/regexp.rs` L470-489. -/
def fmtSet (s : RangeSet) : List Nat :=
  match s, RangeSet.len s with
  | r :: _, 1 => fmtChar r.lo
  | s, n =>
    ['['.toNat] ++ (if charCount / 2 < n then ['^'.toNat] ++ s.gaps.flatMap fmtRange else s.flatMap fmtRange) ++ [']'.toNat]

/-- The text of a number. -/
def fmtNat (n : Nat) : List Nat := (toString n).toList.map Char.toNat

/-- The text of the bounds of a repetition. `layouts/src/abs/regexp.rs` L501-512. -/
def fmtBounds (min max : Nat) : List Nat :=
  if min = 0 ∧ max = 1 then ['?'.toNat]
  else if min = 0 ∧ max = u32Max then ['*'.toNat]
  else if min = 1 ∧ max = u32Max then ['+'.toNat]
  else if max = u32Max then ['{'.toNat] ++ fmtNat min ++ [','.toNat, '}'.toNat]
  else if min = 0 then ['{'.toNat, ','.toNat] ++ fmtNat max ++ ['}'.toNat]
  else if min = max then ['{'.toNat] ++ fmtNat min ++ ['}'.toNat]
  else ['{'.toNat] ++ fmtNat min ++ [','.toNat] ++ fmtNat max ++ ['}'.toNat]

/-- `DisplaySub`, given the text of the expression. `layouts/src/abs/regexp.rs` L533-541. -/
def parenthesize (e : RegExp) (text : List Nat) : List Nat :=
  if e.isSimple then text else ['('.toNat] ++ text ++ [')'.toNat]

/-- `Display`. `layouts/src/abs/regexp.rs` L466-526. -/
def display : RegExp → List Nat
  | .any => ['.'.toNat]
  | .set s => fmtSet s
  | .seq es =>
    match es with
    | [e] => e.display
    | es => displaySubs es
  | .rep e min max => parenthesize e e.display ++ fmtBounds min max
  | .union es => displayUnion true es
where
  /-- The items of a sequence. L491-498. -/
  displaySubs : List RegExp → List Nat
    | [] => []
    | e :: es => parenthesize e e.display ++ displaySubs es
  /-- The items of a union. L514-523. -/
  displayUnion (first : Bool) : List RegExp → List Nat
    | [] => []
    | e :: es => (if first then [] else ['|'.toNat]) ++ parenthesize e e.display ++ displayUnion false es

end RegExp

end Verif
