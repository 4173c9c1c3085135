import Verif.Model.NdSpec

/-!
# torchimage/utils/ragged.py and ndspec.py with arrays and tensors inside specifications

`Model/NdSpec.lean` reads specifications as nested lists.  Here a specification may also contain, at any depth, numeric
`np.ndarray`s and `torch.Tensor`s.  Arrays of other types (`dtype=object`, strings) are treated like lists by the code
and are not distinguished from lists.

A Python scalar and an array with zero axes are kept apart; arrays of zero axes appear as entries of arrays.
-/

namespace TI

/-- nested lists / tuples, numeric arrays (`torch = false`) and tensors (`torch = true`) -/
inductive PyA (α : Type) where
  | leaf (a : α)
  | seq (l : List (PyA α))
  | arr (torch : Bool) (x : Tensor α)

variable {α : Type}

/-- ragged.py:107-108 wrap `k` times in a 1-tuple -/
def PyA.wrapN : Nat → PyA α → PyA α
  | 0, p => p
  | k + 1, p => .seq [PyA.wrapN k p]

mutual
/-- ragged.py:26-124 `get_ragged_ndarray`, with the branches for arrays (75-83) -/
def getRaggedA (strict : Bool) : PyA α → PyA α × List Int
  | .arr b x => (.arr b x, x.shape.map fun n : Nat => (n : Int))
  | .leaf a => (.leaf a, [])
  | .seq [] => (.seq [], [0])
  | .seq (b :: bs) =>
    let rs := getRaggedAList strict (b :: bs)
    let shapes := rs.map Prod.snd
    let len : Int := (bs.length + 1 : Nat)
    if sameLength shapes then
      (.seq (b :: bs), len :: levelShapes ((shapes.headD []).length) shapes)
    else if strict then (.seq (b :: bs), [len])
    else
      let ndim := maxNdim shapes
      (.seq (rs.map fun r => PyA.wrapN (ndim - r.2.length) r.1),
        len :: levelShapes ndim (shapes.map fun s => List.replicate (ndim - s.length) 1 ++ s))
/-- ragged.py:91-96, the loop over the items -/
def getRaggedAList (strict : Bool) : List (PyA α) → List (PyA α × List Int)
  | [] => []
  | a :: l => getRaggedA strict a :: getRaggedAList strict l
end

/-- the sizes after broadcasting `s` to the targets `ts` of the same number, as `torch.Tensor.expand` (-1 keeps a size)
and `np.broadcast_to` do; `none` if impossible -/
def broadcastSizes : List Nat → List Int → Option (List Nat)
  | [], [] => some []
  | n :: s, t :: ts =>
    match broadcastSizes s ts with
    | none => none
    | some r => if t = -1 then some (n :: r) else if t < 0 then none
      else if t = n ∨ n = 1 then some (t.toNat :: r) else none
  | _, _ => none

/-- the entry of an array that is repeated at a position of the broadcast array -/
def sourceIndex : List Nat → List Nat → List Nat
  | n :: s, i :: ix => (if n = 1 then 0 else i) :: sourceIndex s ix
  | _, _ => []

/-- ragged.py:135-143: `arr.expand(*target_shape)` (RuntimeError) or `np.broadcast_to` (ValueError).  Only targets with
one entry per axis are modelled: `expand_ragged_ndarray` produces no others. -/
def expandArr [Zero α] (torch : Bool) (x : Tensor α) (ts : List Int) : Except Err (PyA α × List Int × Bool) :=
  match broadcastSizes x.shape ts with
  | none => .error (if torch then .runtime else .value)
  | some s => .ok (.arr torch (Tensor.ofFn s fun ix => x.get (sourceIndex x.shape ix)), s.map (fun n : Nat => (n : Int)),
      decide (s ≠ x.shape))

mutual
/-- ragged.py:127-185 `_recursive_expand` -/
def recExpandA [Zero α] : List Int → PyA α → Except Err (PyA α × List Int × Bool)
  | [], arr => .ok (arr, [], false)
  | t :: ts, .arr b x => expandArr b x (t :: ts)
  | _ :: _, .leaf a => .ok (.leaf a, [], false)
  | _ :: _, .seq [] => .ok (.seq [], [0], false)
  | t :: ts, .seq (b :: bs) =>
    match recExpandAList ts (b :: bs) with
    | .error e => .error e
    | .ok rs =>
      let items := rs.map fun r => r.1
      let shapes := rs.map fun r => r.2.1
      let modified := rs.any fun r => r.2.2
      if sameLength shapes then
        let itemShape := levelShapes ((shapes.headD []).length) shapes
        let len : Int := (bs.length + 1 : Nat)
        if t = -1 ∨ t = len then
          .ok (.seq (if modified then items else b :: bs), len :: itemShape, modified)
        else if t = 0 then
          -- np.empty(shape) rejects negative sizes
          if itemShape.any (· < 0) then .error .value else .ok (.seq [], 0 :: itemShape, true)
        else if len = 1 then
          .ok (.seq (List.replicate t.toNat ((if modified then items else b :: bs).headD b)),
            t :: itemShape, true)
        else .error .value
      else .error .assertion
/-- ragged.py:154-158, the loop over the items -/
def recExpandAList [Zero α] : List Int → List (PyA α) → Except Err (List (PyA α × List Int × Bool))
  | _, [] => .ok []
  | ts, a :: l =>
    match recExpandA ts a with
    | .error e => .error e
    | .ok r => match recExpandAList ts l with
      | .error e => .error e
      | .ok rs => .ok (r :: rs)
end

/-- ragged.py:243-249 -/
def wrapLeadingA : List Int → PyA α × List Int → PyA α × List Int
  | [], r => r
  | n :: ns, r =>
    let r := wrapLeadingA ns r
    if n = -1 then (.seq [r.1], 1 :: r.2) else (.seq (List.replicate n.toNat r.1), n :: r.2)

/-- ragged.py:196-254 `expand_ragged_ndarray` -/
def expandRaggedA [Zero α] (data : PyA α) (old new : List Int) : Except Err (PyA α × List Int) :=
  if old = new then .ok (data, old)
  else if zeroLengthBad old new then .error .value
  else if old.length < new.length then
    match recExpandA (new.drop (new.length - old.length)) data with
    | .error e => .error e
    | .ok (d, s, _) => .ok (wrapLeadingA (new.take (new.length - old.length)) (d, s))
  else if old.length = new.length then
    match recExpandA new data with
    | .error e => .error e
    | .ok (d, s, _) => .ok (d, s)
  else
    match recExpandA (List.replicate (old.length - new.length) (-1) ++ new) data with
    | .error e => .error e
    | .ok (d, s, _) => .ok (d, s)

/-- `x[i]` of an array: the entries with first coordinate `i` -/
def subArray [Zero α] (x : Tensor α) (i : Nat) : Tensor α := Tensor.ofFn (x.shape.drop 1) fun ix => x.get (i :: ix)

/-- the items of an array, in order; iteration over `arr` -/
def arrItems [Zero α] (torch : Bool) (x : Tensor α) : List (PyA α) :=
  (List.range (x.shape.headD 0)).map fun i => .arr torch (subArray x i)

/-- `data[i]`: a scalar is not subscriptable (TypeError), an array of zero axes and an index out of range are IndexErrors -/
def PyA.index [Zero α] : PyA α → Int → Except Err (PyA α)
  | .leaf _, _ => .error .type
  | .seq l, i => pyIndex l i
  | .arr b x, i => if x.shape = [] then .error .index else pyIndex (arrItems b x) i

/-- ndspec.py:10-183, the stored attributes -/
structure NdSpecA (α : Type) where
  data : PyA α
  shape : List Int
  indexPos : Nat

namespace NdSpecA
variable [Zero α]

/-- ndspec.py:136-183 `NdSpec(data, item_shape=item)` for data that is not an `NdSpec` -/
def ofItem (item : List Int) (data : PyA α) : Except Err (NdSpecA α) :=
  let r := getRaggedA true data
  match expandRaggedA r.1 r.2 item with
  | .error e => .error e
  | .ok (d, s) => .ok ⟨d, s, s.length - item.length⟩

/-- ndspec.py:136-183 `NdSpec(data, index_shape=index)` -/
def ofIndex (index : List Int) (data : PyA α) : Except Err (NdSpecA α) :=
  let r := getRaggedA true data
  match NdSpec.indexShapeOK r.2 index with
  | .error e => .error e
  | .ok false => .error .value
  | .ok true => .ok ⟨r.1, r.2, index.length⟩

/-- ndspec.py:205-207 -/
def isItem (s : NdSpecA α) : Bool := s.indexPos == 0

/-- ndspec.py:209-218 `__len__` -/
def len (s : NdSpecA α) : Int := if s.isItem then 0 else s.shape.headD 0

/-- ndspec.py:220-233 `__getitem__` for an integer key -/
def get (s : NdSpecA α) (i : Int) : Except Err (PyA α) :=
  if s.isItem then .ok s.data else s.data.index i

/-- ndspec.py:235-239 `__iter__`, collected to a list -/
def toList (s : NdSpecA α) : Except Err (List (PyA α)) :=
  if s.isItem then .ok [s.data]
  else NdSpec.sequence ((List.range s.len.toNat).map fun i => s.get (i : Nat))

end NdSpecA
end TI
