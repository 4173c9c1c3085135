import Verif.Model.Tensor

/-!
# torchimage/utils/ragged.py and torchimage/utils/ndspec.py

Python values given as specifications are trees of lists / tuples with leaves in a type `α`
(integers, floats, mode names, `None`, ...).  Lists and tuples are not distinguished.
`torch.Tensor` and `np.ndarray` values inside specifications (ragged.py:75-83 and 135-143) are the
subject of `Model/RaggedArray.lean`; property C102 says that they behave like nested lists.
-/

namespace TI

/-- nested Python lists / tuples -/
inductive Py (α : Type) where
  | leaf (a : α)
  | seq (l : List (Py α))

namespace Py
variable {α β : Type}

/-- number of children; `len(data)` -/
def len : Py α → Nat
  | leaf _ => 0
  | seq l => l.length

/-- the children of a list (none for a leaf) -/
def items : Py α → List (Py α)
  | leaf _ => []
  | seq l => l

end Py

/-- Python `l[i]` for an integer `i`, negative from the right -/
def pyIndex {β : Type} (l : List β) (i : Int) : Except Err β :=
  let j := if i < 0 then i + l.length else i
  if j < 0 then .error .index else
  match l[j.toNat]? with
  | some b => .ok b
  | none => .error .index

/-- `data[i]` on a specification value; a leaf is not subscriptable (TypeError) -/
def Py.index {α : Type} : Py α → Int → Except Err (Py α)
  | .leaf _, _ => .error .type
  | .seq l, i => pyIndex l i

/-- ragged.py:118-122 (and 170-174): the common value of a list of lengths, or -1 -/
def commonLen : List Int → Int
  | [] => -1
  | a :: l => if l.all (· == a) then a else -1

/-- ragged.py:117-122: per level, the common length of the items, or -1 -/
def levelShapes (ndim : Nat) (shapes : List (List Int)) : List Int :=
  (List.range ndim).map fun i => commonLen (shapes.map fun s => s.getD i 0)

/-- ragged.py:98-100 `len(ndim_set) > 1` -/
def sameLength (shapes : List (List Int)) : Bool :=
  match shapes with
  | [] => true
  | s :: l => l.all (fun t => t.length == s.length)

/-- ragged.py:105 `max(ndim_set)` -/
def maxNdim (shapes : List (List Int)) : Nat := shapes.foldl (fun m s => max m s.length) 0

/-- ragged.py:107-108 wrap `k` times in a 1-tuple -/
def wrapN {α : Type} : Nat → Py α → Py α
  | 0, p => p
  | k + 1, p => .seq [wrapN k p]

mutual
/-- ragged.py:26-124 `get_ragged_ndarray` -/
def getRagged {α : Type} (strict : Bool) : Py α → Py α × List Int
  | .leaf a => (.leaf a, [])
  | .seq [] => (.seq [], [0])
  | .seq (b :: bs) =>
    let rs := getRaggedList strict (b :: bs)
    let shapes := rs.map Prod.snd
    let len : Int := (bs.length + 1 : Nat)
    if sameLength shapes then
      (.seq (b :: bs), len :: levelShapes ((shapes.headD []).length) shapes)
    else if strict then (.seq (b :: bs), [len])
    else
      let ndim := maxNdim shapes
      (.seq (rs.map fun r => wrapN (ndim - r.2.length) r.1),
        len :: levelShapes ndim (shapes.map fun s => List.replicate (ndim - s.length) 1 ++ s))
/-- ragged.py:91-96, the loop over the items -/
def getRaggedList {α : Type} (strict : Bool) : List (Py α) → List (Py α × List Int)
  | [] => []
  | a :: l => getRagged strict a :: getRaggedList strict l
end

mutual
/-- ragged.py:127-185 `_recursive_expand` -/
def recExpand {α : Type} : List Int → Py α → Except Err (Py α × List Int × Bool)
  | [], arr => .ok (arr, [], false)
  | _ :: _, .leaf a => .ok (.leaf a, [], false)
  | _ :: _, .seq [] => .ok (.seq [], [0], false)
  | t :: ts, .seq (b :: bs) =>
    match recExpandList ts (b :: bs) with
    | .error e => .error e
    | .ok rs =>
      let items := rs.map fun r => r.1
      let shapes := rs.map fun r => r.2.1
      let modified := rs.any fun r => r.2.2
      if sameLength shapes then
        let itemShape := levelShapes ((shapes.headD []).length) shapes
        let len : Int := (bs.length + 1 : Nat)
        if t = -1 ∨ t = len then
          .ok (.seq (if modified then items else b :: bs), len :: itemShape, modified)
        else if t = 0 then
          -- np.empty(shape) rejects negative sizes
          if itemShape.any (· < 0) then .error .value else .ok (.seq [], 0 :: itemShape, true)
        else if len = 1 then
          .ok (.seq (List.replicate t.toNat ((if modified then items else b :: bs).headD b)),
            t :: itemShape, true)
        else .error .value
      else .error .assertion
/-- ragged.py:154-158, the loop over the items -/
def recExpandList {α : Type} : List Int → List (Py α) → Except Err (List (Py α × List Int × Bool))
  | _, [] => .ok []
  | ts, a :: l =>
    match recExpand ts a with
    | .error e => .error e
    | .ok r => match recExpandList ts l with
      | .error e => .error e
      | .ok rs => .ok (r :: rs)
end

/-- ragged.py:188-193 `_check_zero_length`: is there a violation -/
def zeroLengthBad (old new : List Int) : Bool :=
  (List.zip old.reverse new.reverse).any fun p => p.1 == 0 && decide (p.2 > 0)

/-- ragged.py:243-249: wrap the expanded data for the additional leading dimensions -/
def wrapLeading {α : Type} : List Int → Py α × List Int → Py α × List Int
  | [], r => r
  | n :: ns, r =>
    let r := wrapLeading ns r
    if n = -1 then (.seq [r.1], 1 :: r.2) else (.seq (List.replicate n.toNat r.1), n :: r.2)

/-- ragged.py:196-254 `expand_ragged_ndarray` -/
def expandRagged {α : Type} (data : Py α) (old new : List Int) : Except Err (Py α × List Int) :=
  if old = new then .ok (data, old)
  else if zeroLengthBad old new then .error .value
  else if old.length < new.length then
    match recExpand (new.drop (new.length - old.length)) data with
    | .error e => .error e
    | .ok (d, s, _) => .ok (wrapLeading (new.take (new.length - old.length)) (d, s))
  else if old.length = new.length then
    match recExpand new data with
    | .error e => .error e
    | .ok (d, s, _) => .ok (d, s)
  else
    match recExpand (List.replicate (old.length - new.length) (-1) ++ new) data with
    | .error e => .error e
    | .ok (d, s, _) => .ok (d, s)

mutual
/-- ragged.py:257-260 `_recursive_apply`; iterating over a leaf is a TypeError -/
def recApply {α β : Type} (func : Py α → Except Err (Py β)) : Nat → Py α → Except Err (Py β)
  | 0, arr => func arr
  | _ + 1, .leaf _ => .error .type
  | depth + 1, .seq l =>
    match recApplyList func depth l with
    | .error e => .error e
    | .ok l' => .ok (.seq l')
/-- the generator in ragged.py:260 -/
def recApplyList {α β : Type} (func : Py α → Except Err (Py β)) :
    Nat → List (Py α) → Except Err (List (Py β))
  | _, [] => .ok []
  | depth, a :: l =>
    match recApply func depth a with
    | .error e => .error e
    | .ok b => match recApplyList func depth l with
      | .error e => .error e
      | .ok bs => .ok (b :: bs)
end

/-- ndspec.py:10-183, the stored attributes -/
structure NdSpec (α : Type) where
  data : Py α
  shape : List Int
  indexPos : Nat

namespace NdSpec
variable {α β : Type}

/-- ndspec.py:136-183 `NdSpec(data, item_shape=item)` for data that is not an `NdSpec` -/
def ofItem (item : List Int) (data : Py α) : Except Err (NdSpec α) :=
  let r := getRagged true data
  match expandRagged r.1 r.2 item with
  | .error e => .error e
  | .ok (d, s) => .ok ⟨d, s, s.length - item.length⟩

/-- ndspec.py:178 `all(length == -1 or shape[i] == length ...)`: IndexError if `shape` is too short -/
def indexShapeOK : List Int → List Int → Except Err Bool
  | _, [] => .ok true
  | shape, l :: ls =>
    if l = -1 then indexShapeOK (shape.drop 1) ls
    else match shape with
      | [] => .error .index
      | s :: shape => if s = l then indexShapeOK shape ls else .ok false

/-- ndspec.py:136-183 `NdSpec(data, index_shape=index)` -/
def ofIndex (index : List Int) (data : Py α) : Except Err (NdSpec α) :=
  let r := getRagged true data
  match indexShapeOK r.2 index with
  | .error e => .error e
  | .ok false => .error .value
  | .ok true => .ok ⟨r.1, r.2, index.length⟩

/-- ndspec.py:189-191 -/
def itemShape (s : NdSpec α) : List Int := s.shape.drop s.indexPos

/-- ndspec.py:193-195 -/
def indexShape (s : NdSpec α) : List Int := s.shape.take s.indexPos

/-- ndspec.py:205-207 -/
def isItem (s : NdSpec α) : Bool := s.indexPos == 0

/-- ndspec.py:209-218 `__len__` -/
def len (s : NdSpec α) : Int := if s.isItem then 0 else s.shape.headD 0

/-- ndspec.py:220-233 `__getitem__` for an integer key -/
def get (s : NdSpec α) (i : Int) : Except Err (Py α) :=
  if s.isItem then .ok s.data else s.data.index i

/-- `self.data` indexed successively, ndspec.py:228-231 -/
def indexMany : Py α → List Int → Except Err (Py α)
  | p, [] => .ok p
  | p, i :: is => match p.index i with
    | .error e => .error e
    | .ok q => indexMany q is

/-- ndspec.py:220-233 `__getitem__` for a tuple key -/
def getMany (s : NdSpec α) (key : List Int) : Except Err (Py α) :=
  if s.isItem then .ok s.data
  else if key.length > s.indexShape.length then .error .index
  else indexMany s.data key

/-- evaluate a list of results left to right -/
def sequence {γ : Type} : List (Except Err γ) → Except Err (List γ)
  | [] => .ok []
  | .error e :: _ => .error e
  | .ok a :: l => match sequence l with
    | .error e => .error e
    | .ok as => .ok (a :: as)

/-- ndspec.py:235-239 `__iter__`, collected to a list -/
def toList (s : NdSpec α) : Except Err (List (Py α)) :=
  if s.isItem then .ok [s.data]
  else sequence ((List.range s.len.toNat).map fun i => s.get (i : Nat))

/-- ndspec.py:244-258 `map` -/
def map (s : NdSpec α) (func : Py α → Except Err (Py β)) : Except Err (NdSpec β) :=
  match recApply func (s.shape.length - s.itemShape.length) s.data with
  | .error e => .error e
  | .ok d => ofIndex s.indexShape d

/-- ndspec.py:301-345 `agg_index_shape`, on the index shapes of the arguments -/
def aggIndexShape (shapes : List (List Int)) : Except Err (List Int) :=
  match shapes with
  | [] => .error .value
  | s :: l =>
    if l.all (· == s) then .ok s
    else
      -- two different shapes, one of them ()
      match (s :: l).filter (· ≠ []) with
      | [] => .ok []
      | t :: ts => if ts.all (· == t) then .ok t else .error .value

/-- ndspec.py:347-380 `agg_index_len` with `allowed_index_ndim=(0, 1)` on the index shapes -/
def aggIndexLen (shapes : List (List Int)) : Except Err Int :=
  if shapes.all (fun s => s.length ≤ 1) then
    match aggIndexShape shapes with
    | .error e => .error e
    | .ok s => .ok (s.headD 0)
  else .error .assertion

/-- ndspec.py:410-413, `for i in product(*map(range, index_shape))` and `data.tolist()`: the nested lists of the results for all
index tuples that begin with `key` -/
def grid (at_ : List Int → Except Err (Py α)) : List Int → List Int → Except Err (Py α)
  | [], key => at_ key
  | m :: ms, key =>
    match sequence ((List.range m.toNat).map fun (i : Nat) => grid at_ ms (key ++ [(i : Int)])) with
    | .error e => .error e
    | .ok l => .ok (.seq l)

/-- ndspec.py:382-416 `apply`, common part: `whole` is `func(*[a.data ...])`, `at_ key` is
`func(*[a[key] ...])` for an index tuple.  `np.empty(index_shape)` rejects negative sizes (ragged index axes). -/
def applyCore (shapes : List (List Int)) (whole : Except Err (Py α)) (at_ : List Int → Except Err (Py α)) :
    Except Err (NdSpec α) :=
  match aggIndexShape shapes with
  | .error e => .error e
  | .ok [] => match whole with
    | .error e => .error e
    | .ok d => ofIndex [] d
  | .ok (m :: ms) =>
    if (m :: ms).any (· < 0) then .error .value
    else match grid at_ (m :: ms) [] with
      | .error e => .error e
      | .ok d => ofIndex (m :: ms) d

/-- ndspec.py:382-416 `apply` with two specifications -/
def apply2 {γ : Type} (func : Py α → Py β → Except Err (Py γ)) (a : NdSpec α) (b : NdSpec β) :
    Except Err (NdSpec γ) :=
  applyCore [a.indexShape, b.indexShape] (func a.data b.data) fun i => do
    let p ← a.getMany i
    let q ← b.getMany i
    func p q

/-- ndspec.py:382-416 `apply` with three specifications -/
def apply3 {γ δ : Type} (func : Py α → Py β → Py γ → Except Err (Py δ)) (a : NdSpec α) (b : NdSpec β)
    (c : NdSpec γ) : Except Err (NdSpec δ) :=
  applyCore [a.indexShape, b.indexShape, c.indexShape] (func a.data b.data c.data) fun i => do
    let p ← a.getMany i
    let q ← b.getMany i
    let r ← c.getMany i
    func p q r

/-- ndspec.py:382-416 `apply` with four specifications -/
def apply4 {γ δ ε : Type} (func : Py α → Py β → Py γ → Py δ → Except Err (Py ε)) (a : NdSpec α)
    (b : NdSpec β) (c : NdSpec γ) (d : NdSpec δ) : Except Err (NdSpec ε) :=
  applyCore [a.indexShape, b.indexShape, c.indexShape, d.indexShape]
    (func a.data b.data c.data d.data) fun i => do
    let p ← a.getMany i
    let q ← b.getMany i
    let r ← c.getMany i
    let s ← d.getMany i
    func p q r s

/-- ndspec.py:282-299 `zip` of two specifications -/
def zip2 (a b : NdSpec α) : Except Err (NdSpec α) := apply2 (fun p q => .ok (.seq [p, q])) a b

end NdSpec

end TI
