import Verif.Model.Edges
import Mathlib.Analysis.SpecialFunctions.Pow.Real

/-!
# torchimage/misc/power.py

Floating point numbers are real numbers or `bad` (NaN or infinite); rounding and overflow are not modelled.  Of the dtypes only the
distinction between integer and floating point tensors is kept, since the code converts between them.
-/

namespace TI

/-- an entry of a floating point result: a real number, or NaN / infinite -/
inductive Val where
  | real (r : ℝ)
  | bad

instance : Zero Val := ⟨.real 0⟩

/-- `-v` -/
def Val.neg : Val → Val
  | .real r => .real (-r)
  | .bad => .bad

/-- a tensor of numbers and whether its dtype is an integer type -/
structure NumTensor where
  isInt : Bool
  t : Tensor ℝ

/-- an argument that is a tensor, a Python int or a Python float -/
inductive NumArg where
  | tensor (x : NumTensor)
  | int (n : Int)
  | float (r : ℝ)

namespace NumArg

/-- `torch.tensor(v)`; tensors stay -/
noncomputable def alone : NumArg → NumTensor
  | tensor x => x
  | int n => ⟨true, .scalar n⟩
  | float r => ⟨false, .scalar r⟩

/-- `torch.tensor(v, dtype=..)`: an integer dtype drops the fractional part; tensors stay -/
noncomputable def asType (isInt : Bool) : NumArg → NumTensor
  | tensor x => x
  | int n => ⟨isInt, .scalar n⟩
  | float r => ⟨isInt, .scalar (if isInt then (truncInt r : ℝ) else r)⟩

/-- power.py:39-48: both arguments as tensors -/
noncomputable def both : NumArg → NumArg → NumTensor × NumTensor
  | tensor x, e => (x, e.asType x.isInt)
  | x, tensor e => (x.asType e.isInt, e)
  | x, e => (x.alone, e.alone)

end NumArg

/-- `torch.floor(v) != v` -/
noncomputable def isFractional (v : ℝ) : Bool := decide (((⌊v⌋ : Int) : ℝ) ≠ v)

/-- one entry of `torch.pow`: NaN for a fractional power of a negative number, infinite for a negative power of zero.  The result for
two integers is an integer; a negative power of an integer (`powi` in ATen/native/Pow.h) is 0 unless the base is 1 or -1. -/
noncomputable def powVal (ints : Bool) (x e : ℝ) : Val :=
  if ints = true ∧ e < 0 then .real (if x = 1 ∨ x = -1 then x ^ e else 0)
  else if (x < 0 ∧ isFractional e = true) ∨ (x = 0 ∧ e < 0) then .bad else .real (x ^ e)

/-- `torch.pow(x, e)` -/
noncomputable def torchPow (ints : Bool) (x e : Tensor ℝ) : Except Err (Tensor Val) := Tensor.bop (powVal ints) x e

section
variable {β : Type}

/-- the data of `x[mask]` -/
def maskedSelect (mask : List Bool) (l : List β) : List β := ((mask.zip l).filter fun p => p.1).map fun p => p.2

/-- the data of `x.masked_scatter(mask, src)`, also of `x[mask] = src` -/
def maskedPut : List Bool → List β → List β → List β
  | true :: m, _ :: l, s :: src => s :: maskedPut m l src
  | false :: m, a :: l, src => a :: maskedPut m l src
  | _, l, _ => l

theorem maskedPut_length : ∀ (m : List Bool) (l src : List β), (maskedPut m l src).length = l.length
  | true :: m, a :: l, s :: src => by simp [maskedPut, maskedPut_length m l src]
  | false :: m, a :: l, src => by simp [maskedPut, maskedPut_length m l src]
  | true :: m, a :: l, [] => by simp [maskedPut]
  | true :: m, [], src => by simp [maskedPut]
  | false :: m, [], src => by simp [maskedPut]
  | [], l, src => by simp [maskedPut]

/-- `x[mask]` -/
def Tensor.masked (x : Tensor β) (mask : Tensor Bool) : List β := maskedSelect mask.data x.data

/-- `x.masked_scatter(mask, src)` -/
def Tensor.put (x : Tensor β) (mask : Tensor Bool) (src : List β) : Tensor β :=
  ⟨x.shape, maskedPut mask.data x.data src, by rw [maskedPut_length, x.wf]⟩

/-- `x.any()` -/
def Tensor.any (x : Tensor Bool) : Bool := x.data.any id

/-- one of the results of `torch.broadcast_tensors` -/
def Tensor.expandTo [Zero β] (x : Tensor β) (s : List Nat) : Tensor β := Tensor.ofFn s fun ix => x.get (bidx x.shape ix)

end

/-- power.py:51-71, after the conversion.  The comparisons are made after broadcasting here, before it in the code; they are
entrywise. -/
noncomputable def powCore (x e : NumTensor) (epsilon : ℝ) : Except Err (Tensor Val) := do
  let ints := x.isInt && e.isInt
  if (e.t.map isFractional).any = false then torchPow ints x.t e.t
  else
    match bshape x.t.shape e.t.shape with
    | none => .error .runtime
    | some s =>
      let xb := x.t.expandTo s
      let eb := e.t.expandTo s
      let fractional := eb.map isFractional
      let lt0 := xb.map fun v => decide (v < 0)
      let eq0 := xb.map fun v => decide (v = 0)
      let zero : Tensor Bool := Tensor.ofFn s fun ix => eq0.data.getD (ravel s ix) false && fractional.data.getD (ravel s ix) false
      -- `x[mask] += epsilon` is in place: RuntimeError for an integer dtype
      let xb ← (if epsilon ≠ 0 ∧ zero.any = true then
          if x.isInt then .error .runtime else .ok (xb.put zero ((xb.masked zero).map fun v => v + epsilon))
        else .ok xb : Except Err (Tensor ℝ))
      let negative : Tensor Bool := Tensor.ofFn s fun ix => lt0.data.getD (ravel s ix) false && fractional.data.getD (ravel s ix) false
      if negative.any = true then
        let xb := xb.put negative ((xb.masked negative).map fun v => -v)
        let out ← torchPow ints xb eb
        .ok (out.put negative ((out.masked negative).map Val.neg))
      else torchPow ints xb eb

/-- power.py:4-71 `safe_power` -/
noncomputable def safePower (x e : NumArg) (epsilon : ℝ) : Except Err (Tensor Val) :=
  powCore (x.both e).1 (x.both e).2 epsilon

end TI
