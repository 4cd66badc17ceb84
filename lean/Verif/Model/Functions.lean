import Verif.Model.Minuit
/-
Model of src/function: Gaussian.{h,cpp}, GaussianFitter.{h,cpp}, JumpPDF.cpp, VaryingCDF.cpp, SquareRootScale.{h,cpp}.
`Heaviside` is an abstract class (it defines neither `Clone` nor `GetNDims`), no object of it exists, and it is not modelled.
-/
namespace Oxsx

/-- src/function/Gaussian.h:64-71, with the name lists of its fitter (GaussianFitter.h:31-33; the fitter's pointer is always to the owner,
Gaussian.cpp:17-58). -/
structure Gaussian (α : Type) where
  means : List α
  stdDevs : List α
  cutOff : α
  nDims : Nat
  name : String
  meanNames : List String
  sdNames : List String
  deriving DecidableEq

namespace Gaussian
variable {α : Type} [Field α] [LinearOrder α]

/-- src/function/GaussianFitter.cpp:13-26: `ss << "means" << "_" << i`. -/
def defaultNames (stem : String) (n : Nat) : List String := (List.range n).map (fun i => stem ++ "_" ++ toString i)

/-- src/function/Gaussian.cpp:136-149, the checks. -/
def checkWidths (means stdDevs : List α) : Res Unit :=
  if means.length ≠ stdDevs.length then .throw .dimension
  else Res.forFold (fun _ s => Res.throwIf (s ≤ 0) .value) () stdDevs

/-- src/function/Gaussian.cpp:32-37, 60-72. -/
def make (means stdDevs : List α) (name : String) : Res (Gaussian α) :=
  checkWidths means stdDevs >>= fun _ =>
  Res.ok ⟨means, stdDevs, 6, means.length, if name = "" then "gaussian" else name,
    defaultNames "means" means.length, defaultNames "stddevs" means.length⟩

/-- src/function/Gaussian.cpp:22-25 -/
def makeUnit (n : Nat) (name : String) : Res (Gaussian α) := make (List.replicate n 0) (List.replicate n 1) name

/-- src/function/Gaussian.cpp:39-46 and the fitter built from name lists, GaussianFitter.cpp:28-38. -/
def copy (g : Gaussian α) : Res (Gaussian α) :=
  if g.meanNames.length ≠ g.sdNames.length then .throw .oxsx else .ok { g with name := g.name ++ "_copy" }

/-- src/function/Gaussian.cpp:84-95 -/
def getMean (g : Gaussian α) (i : Nat) : Res α := (at_ g.means i).mapExc (fun e => if e = .outOfRange then .notFound else e)

/-- src/function/Gaussian.cpp:97-108 -/
def getStDev (g : Gaussian α) (i : Nat) : Res α := (at_ g.stdDevs i).mapExc (fun e => if e = .outOfRange then .notFound else e)

/-- src/function/Gaussian.cpp:110-113 -/
def setMean (g : Gaussian α) (i : Nat) (v : α) : Res (Gaussian α) := setIdx g.means i v >>= fun l => Res.ok { g with means := l }

/-- src/function/Gaussian.cpp:115-118: no check of the sign. -/
def setStDev (g : Gaussian α) (i : Nat) (v : α) : Res (Gaussian α) := setIdx g.stdDevs i v >>= fun l => Res.ok { g with stdDevs := l }

/-- src/function/Gaussian.cpp:120-123: neither the size nor the dimension is looked at. -/
def setMeans (g : Gaussian α) (l : List α) : Gaussian α := { g with means := l }

/-- src/function/Gaussian.cpp:125-128 -/
def setStDevs (g : Gaussian α) (l : List α) : Gaussian α := { g with stdDevs := l }

/-- src/function/Gaussian.cpp:163-166 -/
def setCdfCutOff (g : Gaussian α) (c : α) : Gaussian α := { g with cutOff := c }

/-- One pass of the two loops of src/function/Gaussian.cpp:188-199: the summand of the exponent and the factor of the norm; `rt` is
`sqrt(2 * M_PI)`. -/
def evalStep (g : Gaussian α) (vals : List α) (i : Nat) : Res α :=
  at_ g.means i >>= fun m => at_ g.stdDevs i >>= fun s => at_ vals i >>= fun x => Res.ok ((x - m) / s * ((x - m) / s))

/-- src/function/Gaussian.cpp:178-202; `ex` is `exp`, `rt` is `sqrt(2 * M_PI)`. -/
def eval (ex : α → α) (rt : α) (g : Gaussian α) (vals : List α) : Res α :=
  if vals.length ≠ g.nDims then .throw .dimension
  else
    Res.forFold (fun e i => evalStep g vals i >>= fun q => Res.ok (e + q)) 0 (List.range g.nDims) >>= fun e =>
    Res.forFold (fun n i => at_ g.stdDevs i >>= fun s => Res.ok (n * (rt * s))) 1 (List.range g.nDims) >>= fun n =>
    Res.ok (ex (-(1 / 2) * e) / n)

/-- src/function/Gaussian.cpp:204-214; `phi x s` is `gsl_cdf_gaussian_P(x, s)`. -/
def cdf (phi : α → α → α) (g : Gaussian α) (i : Nat) (v : α) : Res α :=
  g.getMean i >>= fun m => g.getStDev i >>= fun s =>
    if (v - m) / s > g.cutOff then .ok 1
    else if (v - m) / s < -1 * g.cutOff then .ok 0
    else .ok (phi (v - m) s)

/-- One iteration of src/function/Gaussian.cpp:223-224. -/
def integralStep (phi : α → α → α) (g : Gaussian α) (mins maxs : List α) (acc : α) (i : Nat) : Res α :=
  idx maxs i >>= fun hi => g.cdf phi i hi >>= fun a => idx mins i >>= fun lo => g.cdf phi i lo >>= fun b => Res.ok (acc * (a - b))

/-- src/function/Gaussian.cpp:216-227 -/
def integral (phi : α → α → α) (g : Gaussian α) (mins maxs : List α) : Res α :=
  if mins.length ≠ g.nDims ∨ maxs.length ≠ g.nDims then .throw .dimension
  else Res.forFold (integralStep phi g mins maxs) 1 (List.range mins.length)

/-- `std::find(v.begin() + from, v.end(), x) - v.begin()`. -/
def findFrom (l : List String) (x : String) (start : Nat) : Option Nat := (findPos (l.drop start) x).map (· + start)

/-- The loops src/function/GaussianFitter.cpp:46-51, 53-58: `it = find(it++, end, old)` looks again from the same position, since the
assignment overwrites the increment. Renames with the search standing at `pos`; `none` when still running after `fuel` steps. -/
def renameLoop (old new : String) : Nat → List String → Nat → Option (List String)
  | 0, _, _ => none
  | fuel + 1, l, pos =>
    match findFrom l old pos with
    | none => some l
    | some i => renameLoop old new fuel (l.set i new) i

/-- src/function/GaussianFitter.cpp:40-59 (reached through Gaussian.cpp:243-246); `none` when still running. -/
def renameParameter (g : Gaussian α) (fuel : Nat) (old new : String) : Option (Res (Gaussian α)) :=
  if old ∉ g.meanNames ∧ old ∉ g.sdNames then some (.throw .notFound)
  else
    match renameLoop old new fuel g.meanNames 0 with
    | none => none
    | some ms =>
      match renameLoop old new fuel g.sdNames 0 with
      | none => none
      | some ss => some (.ok { g with meanNames := ms, sdNames := ss })

/-- One step of the loops of src/function/GaussianFitter.cpp:77-87, which visit the positions holding the name in order. -/
def setMeanIf (name : String) (v : α) (g : Gaussian α) (i : Nat) : Res (Gaussian α) :=
  if g.meanNames[i]? = some name then g.setMean i v else .ok g

/-- As `setMeanIf`, src/function/GaussianFitter.cpp:82-87. -/
def setSdIf (name : String) (v : α) (g : Gaussian α) (i : Nat) : Res (Gaussian α) :=
  if g.sdNames[i]? = some name then g.setStDev i v else .ok g

/-- src/function/GaussianFitter.cpp:73-88 -/
def setParameter (g : Gaussian α) (name : String) (v : α) : Res (Gaussian α) :=
  Res.forFold (setMeanIf name v) g (List.range g.meanNames.length) >>= fun g =>
  Res.forFold (setSdIf name v) g (List.range g.sdNames.length)

/-- `std::distance(it, begin)` converted to `size_t` for the position `i` of `it`: minus `i`, modulo 2^64. -/
def negIndex (i : Nat) : Nat := (2 ^ 64 - i % 2 ^ 64) % 2 ^ 64

/-- src/function/GaussianFitter.cpp:90-107 -/
def getParameter (g : Gaussian α) (name : String) : Res α :=
  match findPos g.meanNames name with
  | some i => g.getMean (negIndex i)
  | none =>
    match findPos g.sdNames name with
    | some i => g.getStDev (negIndex i)
    | none => .throw .notFound

/-- src/function/GaussianFitter.cpp:109-115 -/
def setParameters (g : Gaussian α) (d : ParamDict α) : Res (Gaussian α) := Res.forFold (fun g p => g.setParameter p.1 p.2) g d

/-- src/function/GaussianFitter.cpp:117-134 -/
def getParameters (g : Gaussian α) : Res (ParamDict α) := Minuit.createMap (g.meanNames ++ g.sdNames) (g.means ++ g.stdDevs)

/-- src/function/GaussianFitter.cpp:136-140 -/
def getParameterCount (g : Gaussian α) : Nat := g.meanNames.length + g.sdNames.length

end Gaussian

/-- src/function/SquareRootScale.h:45-48 -/
structure SquareRootScale (α : Type) where
  name : String
  paramName : String
  gradient : α
  deriving DecidableEq

namespace SquareRootScale
variable {α : Type} [Field α] [LinearOrder α]

/-- src/function/SquareRootScale.h:26 -/
def new (name : String) : SquareRootScale α := ⟨name, "grad", 1⟩

/-- src/function/SquareRootScale.cpp:8-11; `rt` is `sqrt`. `abs` is `std::abs(double)` (`math.h` is included from C++ headers; were the C
function on integers chosen the argument would be truncated first). -/
def eval (rt : α → α) (f : SquareRootScale α) (vals : List α) : Res α := at_ vals 0 >>= fun x => Res.ok (f.gradient * rt |x|)

/-- src/function/SquareRootScale.cpp:14-19 -/
def setParameter (f : SquareRootScale α) (n : String) (v : α) : Res (SquareRootScale α) :=
  if n ≠ f.paramName then .throw .parameter else .ok { f with gradient := v }

/-- src/function/SquareRootScale.cpp:21-26 -/
def getParameter (f : SquareRootScale α) (n : String) : Res α := if n ≠ f.paramName then .throw .parameter else .ok f.gradient

/-- src/function/SquareRootScale.cpp:28-38 -/
def setParameters (f : SquareRootScale α) (d : ParamDict α) : Res (SquareRootScale α) :=
  match d.find f.paramName with
  | some v => .ok { f with gradient := v }
  | none => .throw .parameter

/-- src/function/SquareRootScale.cpp:40-45 -/
def getParameters (f : SquareRootScale α) : ParamDict α := [(f.paramName, f.gradient)]

/-- src/function/SquareRootScale.cpp:53-58 -/
def renameParameter (f : SquareRootScale α) (old new : String) : Res (SquareRootScale α) :=
  if old ≠ f.paramName then .throw .parameter else .ok { f with paramName := new }

end SquareRootScale

/-- A `JumpPDF` around a Gaussian (the only `PDF` of src/function): src/function/JumpPDF.h:50-52; `none` is the NULL pointer. -/
structure JumpPDF (α : Type) where
  name : String
  pdf : Option (Gaussian α)
  deriving DecidableEq

namespace JumpPDF
variable {α : Type} [Field α] [LinearOrder α]

/-- src/function/JumpPDF.cpp:11-19 (the given PDF is cloned). -/
def make (name : String) (g : Option (Gaussian α)) : Res (JumpPDF α) :=
  match g with
  | none => .ok ⟨name, none⟩
  | some g => g.copy >>= fun c => Res.ok ⟨name, some c⟩

/-- src/function/JumpPDF.cpp:48-56: reads past the end of a shorter second vector. -/
def diff (x y : List α) : Res (List α) := if y.length < x.length then .ub else .ok (List.zipWith (· - ·) x y)

/-- src/function/JumpPDF.cpp:58-66 -/
def sum (x y : List α) : Res (List α) := if y.length < x.length then .ub else .ok (List.zipWith (· + ·) x y)

/-- src/function/JumpPDF.cpp:78-87 -/
def probability (ex : α → α) (rt : α) (j : JumpPDF α) (x x2 : List α) : Res α :=
  match j.pdf with
  | none => .throw .nullPtr
  | some g => diff x x2 >>= fun d => g.eval ex rt d

/-- src/function/JumpPDF.cpp:98-108 -/
def integral (phi : α → α → α) (j : JumpPDF α) (mins maxs x2 : List α) : Res α :=
  match j.pdf with
  | none => .throw .nullPtr
  | some g => diff mins x2 >>= fun lo => diff maxs x2 >>= fun hi => g.integral phi lo hi

/-- src/function/JumpPDF.cpp:149-162 -/
def setParameters (j : JumpPDF α) (d : ParamDict α) : Res (JumpPDF α) :=
  match j.pdf with
  | none => .throw .nullPtr
  | some g => g.setParameters d >>= fun g => Res.ok { j with pdf := some g }

end JumpPDF

/-- src/function/VaryingCDF.h:83-87: the functions governing the kernel's parameters, here `SquareRootScale`s (the one scalar `Function`
of the library without dimensions to choose), and the kernel; `none` is the pointer before `SetKernel`, which the constructor leaves
uninitialised. -/
structure VaryingCDF (α : Type) where
  name : String
  functions : SMap (SquareRootScale α)
  kernel : Option (JumpPDF α)
  deriving DecidableEq

namespace VaryingCDF
variable {α : Type} [Field α] [LinearOrder α]

/-- src/function/VaryingCDF.cpp:19-25 -/
def new (name : String) : VaryingCDF α := ⟨if name = "" then "VaryingCDF" else name, [], none⟩

/-- src/function/VaryingCDF.cpp:99-105: a Gaussian is wrapped in a `JumpPDF`. -/
def setKernel (v : VaryingCDF α) (g : Gaussian α) : Res (VaryingCDF α) :=
  JumpPDF.make "kernel" (some g) >>= fun j => Res.ok { v with kernel := some j }

/-- src/function/VaryingCDF.cpp:78-81 -/
def setDependance (v : VaryingCDF α) (n : String) (f : SquareRootScale α) : VaryingCDF α := { v with functions := v.functions.insert n f }

/-- src/function/VaryingCDF.cpp:57-66; the keys of the result are inserted in order into an empty map. -/
def setupParameters (rt : α → α) (v : VaryingCDF α) (x2 : List α) : Res (ParamDict α) :=
  Res.traverse (fun (p : String × SquareRootScale α) => p.2.eval rt x2 >>= fun y => Res.ok (p.1, y)) v.functions

/-- src/function/VaryingCDF.cpp:83-92: the value and the object left behind (the kernel's parameters are changed). -/
def integral (rt : α → α) (phi : α → α → α) (v : VaryingCDF α) (mins maxs x2 : List α) : Res (α × VaryingCDF α) :=
  match v.kernel with
  | none => .ub
  | some j => v.setupParameters rt x2 >>= fun d => j.setParameters d >>= fun j =>
      j.integral phi mins maxs x2 >>= fun r => Res.ok (r, { v with kernel := some j })

/-- src/function/VaryingCDF.cpp:68-76 -/
def probability (rt : α → α) (ex : α → α) (c : α) (v : VaryingCDF α) (x x2 : List α) : Res (α × VaryingCDF α) :=
  match v.kernel with
  | none => .ub
  | some j => v.setupParameters rt x2 >>= fun d => j.setParameters d >>= fun j =>
      j.probability ex c x x2 >>= fun r => Res.ok (r, { v with kernel := some j })

/-- src/function/VaryingCDF.cpp:116-122: every function is told to set it. -/
def setParameter (v : VaryingCDF α) (n : String) (x : α) : Res (VaryingCDF α) :=
  Res.traverse (fun (p : String × SquareRootScale α) => p.2.setParameter n x >>= fun f => Res.ok (p.1, f)) v.functions >>= fun fs =>
  Res.ok { v with functions := fs }

/-- src/function/VaryingCDF.cpp:124-146: only `NotFoundError` is caught, so the first function's `ParameterError` leaves. -/
def getParameterLoop (n : String) : SMap (SquareRootScale α) → Res α
  | [] => .throw .notFound
  | p :: r =>
    match p.2.getParameter n with
    | .ok x => .ok x
    | .throw .notFound => getParameterLoop n r
    | .throw e => .throw e
    | .ub => .ub

/-- src/function/VaryingCDF.cpp:124-146 -/
def getParameter (v : VaryingCDF α) (n : String) : Res α := getParameterLoop n v.functions

/-- src/function/VaryingCDF.cpp:148-154 -/
def setParameters (v : VaryingCDF α) (d : ParamDict α) : Res (VaryingCDF α) :=
  Res.traverse (fun (p : String × SquareRootScale α) => p.2.setParameters d >>= fun f => Res.ok (p.1, f)) v.functions >>= fun fs =>
  Res.ok { v with functions := fs }

/-- src/function/VaryingCDF.cpp:156-166 -/
def getParameters (v : VaryingCDF α) : ParamDict α := v.functions.foldl (fun (d : ParamDict α) p => d.insertAll p.2.getParameters) []

/-- src/function/VaryingCDF.cpp:191-197 -/
def renameParameter (v : VaryingCDF α) (old new : String) : Res (VaryingCDF α) :=
  Res.traverse (fun (p : String × SquareRootScale α) => p.2.renameParameter old new >>= fun f => Res.ok (p.1, f)) v.functions >>= fun fs =>
  Res.ok { v with functions := fs }

end VaryingCDF
end Oxsx
