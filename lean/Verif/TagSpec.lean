import Verif.Cbor

/-!
# Tagged CBOR encodings

The specification of the tagged encoding of a typed tree, for property C49. Nothing here models code.
-/

namespace Verif

variable {F R ε : Type}

/-- `c` is `w` in the tag of the layout `ty`, or `w` itself if the layout has no tag. -/
def Wrapped (tagOf : R → Out ε (Option Nat)) (ty : R) (w c : Cbor F) : Prop :=
  (∃ t, tagOf ty = .ok (some t) ∧ c = .tag t w) ∨ (tagOf ty = .ok none ∧ c = w)

/-- `c` is the encoding of the typed tree in which every value, at any depth, is wrapped in the tag of its layout. Keys of maps
and constants are encoded plainly. `collect` collects the entries of a map. -/
inductive Carries (toF64 : Rat → F) (collect : List (Cbor F × Cbor F) → List (Cbor F × Cbor F))
    (tagOf : R → Out ε (Option Nat)) : TypedValue R → Cbor F → Prop
  | always {v : Value} {c : Cbor F} (h : v.toCbor toF64 collect = .ok c) : Carries toF64 collect tagOf (.always v) c
  | literal {l : TypedLiteral R} {w c : Cbor F} (h : l.toCbor toF64 = .ok w) (hw : Wrapped tagOf l.type w c) :
    Carries toF64 collect tagOf (.literal l) c
  | variant {v : TypedValue R} {ty : R} {i : Nat} {w c : Cbor F} (h : Carries toF64 collect tagOf v w)
    (hw : Wrapped tagOf ty w c) : Carries toF64 collect tagOf (.variant v ty i) c
  | map {m : List (Value × TypedValue R)} {ty : R} {es : List (Cbor F × Cbor F)} {c : Cbor F}
    (hk : List.Forall₂ (fun (k : Value) c => k.toCbor toF64 collect = .ok c) (m.map Prod.fst) (es.map Prod.fst))
    (hv : List.Forall₂ (Carries toF64 collect tagOf) (m.map Prod.snd) (es.map Prod.snd))
    (hw : Wrapped tagOf ty (.map (collect es)) c) : Carries toF64 collect tagOf (.map m ty) c
  | list {l : List (TypedValue R)} {ty : R} {ws : List (Cbor F)} {c : Cbor F}
    (h : List.Forall₂ (Carries toF64 collect tagOf) l ws) (hw : Wrapped tagOf ty (.array ws) c) :
    Carries toF64 collect tagOf (.list l ty) c

/-- `ty` is the layout of a value of the tree, at any depth. -/
inductive TypeInside : R → TypedValue R → Prop
  | literal (l : TypedLiteral R) : TypeInside l.type (.literal l)
  | variant (v : TypedValue R) (ty i) : TypeInside ty (.variant v ty i)
  | inner {r v} (ty i) (h : TypeInside r v) : TypeInside r (.variant v ty i)
  | map (m : List (Value × TypedValue R)) (ty) : TypeInside ty (.map m ty)
  | entry {r} {m : List (Value × TypedValue R)} {e} (ty) (he : e ∈ m) (h : TypeInside r e.2) : TypeInside r (.map m ty)
  | list (l : List (TypedValue R)) (ty) : TypeInside ty (.list l ty)
  | item {r} {l : List (TypedValue R)} {v} (ty) (hv : v ∈ l) (h : TypeInside r v) : TypeInside r (.list l ty)

end Verif
