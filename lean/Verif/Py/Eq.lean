import Verif.Py.Heap
/-!
# Equality and hashability of dictionary keys and set elements

What `set.add` and `dict(...)` need to know of two objects.  An object's *view* is a finite
tree: tuples unfold, numbers become their mathematical value, NaN and opaque objects keep their
identity.  `none` means unhashable (TypeError).
Simplifications: an opaque object equals itself and those opaque objects that
`opaqueEq` says (value equality such as `datetime.__eq__`); it never equals a built-in object.
-/
namespace Verif

inductive KV where
  | none
  | num (v : XR × XR)
  | nan (a : Addr)
  | str (s : PyStr)
  | bytes (b : Bytes)
  | opaque (a : Addr) (st : Nat)
  | tup (l : List KV)
  deriving Repr, Inhabited

mutual
/-- `x is y or x == y` on views -/
def KV.eqv (oeq : Nat → Nat → Bool) : KV → KV → Bool
  | .none, .none => true
  | .num v, .num w => v = w
  | .nan a, .nan b => a = b
  | .str s, .str t => s = t
  | .bytes s, .bytes t => s = t
  | .opaque a s, .opaque b t => a = b || oeq s t
  | .tup l, .tup l' => KV.eqvs oeq l l'
  | _, _ => false
def KV.eqvs (oeq : Nat → Nat → Bool) : List KV → List KV → Bool
  | [], [] => true
  | x :: xs, y :: ys => KV.eqv oeq x y && KV.eqvs oeq xs ys
  | _, _ => false
end

/-- view of a number: NaN keeps its identity -/
def KV.ofNum (a : Addr) (v : XR × XR) : KV :=
  if v.1 = .nan ∨ v.2 = .nan then .nan a else .num v

/-- the number a value is, if it is one (`bool` counts as int) -/
def Val.num? : Val → Option NpVal
  | .bool b => some (.b b)
  | .int i => some (.i i)
  | .float x => some (.f x)
  | .cplx x y => some (.c x y)
  | .np v => some v
  | _ => Option.none

/-- view of an object; `fuel` bounds the nesting of tuples -/
def keyView (env : Nat → UserCls) (h : Heap) : Nat → Addr → Option KV
  | 0, _ => Option.none
  | fuel + 1, a =>
    match h[a]? with
    | Option.none => Option.none
    | some o =>
      match o.val with
      | .none => some .none
      | .str s => some (.str s)
      | .bytes b => some (.bytes b)
      | .opaque st _ => some (.opaque a st)
      | .seq items =>
        if Cls.tuple ∈ o.cls.mro env then (items.mapM (keyView env h fuel)).map .tup else Option.none
      | .set _ | .dict _ | .arr .. | .sarr .. | .oarr .. | .masked .. | .sparse .. | .recData .. | .recGroup .. => Option.none
      | v => v.num?.map fun x => KV.ofNum a x.val

/-- view of an object: tuples reachable through tuples only can not form a cycle, so the heap
size bounds the nesting -/
def view (env : Nat → UserCls) (h : Heap) (a : Addr) : Option KV := keyView env h (h.length + 1) a

end Verif
