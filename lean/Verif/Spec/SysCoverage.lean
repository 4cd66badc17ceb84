import Verif.Spec.ObjectFits
import Verif.Spec.SysFit
/-
What C117 means by the fraction of experiments whose region contains the truth.
-/
namespace Oxsx
open MeasureTheory ProbabilityTheory Filter
open scoped Topology

/-- The fraction of experiments whose region contains the truth: the truth `x` is drawn between the limits with density proportional to `prior`, the data `n` from `law x`, and `R n` is the
region that the data give. -/
noncomputable def coverageOf {p : Nat} {Y : Type} [MeasurableSpace Y] (lo hi : Fin p → ℝ) (prior : (Fin p → ℝ) → ℝ) (law : (Fin p → ℝ) → Measure Y) (R : Y → Set (Fin p → ℝ)) : ℝ :=
  ∫ x, (law x).real {n | x ∈ R n} ∂(sampledLaw lo hi prior)

/-- The part of the parameter space in the bins `B`. -/
def regionOf (c : AxisCollection ℝ) (as : List (BinAxis ℝ)) (ks : List String) (B : Finset ℕ) : Set (Fin ks.length → ℝ) := {x | ∃ b ∈ B, x ∈ binRegion c as ks b}

open Classical in
/-- `run n m r ins m'` says that the chain `m`, run on the data `n` with these random numbers, ends as `m'`. Every run ends, with the contents `cnt` of its full histogram; and whatever bins are chosen, by any rule, for
the data and the run: with a probability, over the random numbers of the chain, that goes to one with the number of steps, the fraction of the experiments in which the truth is in the chosen bins, or the
chain has put less than a fraction `q` of its steps into them, is at least `q - ε`. -/
def RegionsCover {Y : Type} [MeasurableSpace Y] (ks : List String) (lo hi : Fin ks.length → ℝ) (m : MCMC ℝ) (s : MetropolisSampler ℝ) (as : List (BinAxis ℝ)) (prior : (Fin ks.length → ℝ) → ℝ)
    (law : (Fin ks.length → ℝ) → Measure Y) (x0 : Y → Fin ks.length → ℝ) (burnIn thin : Int) (r : String → ℝ) (run : Y → MCMC ℝ → (String → ℝ) → List (MCInput ℝ) → MCMC ℝ → Prop) : Prop :=
  ∃ cnt : (N : ℕ) → Y → (Fin N → (Fin ks.length → ℝ) × ℝ) → Nat → ℝ,
    (∀ N, 0 < N → ∀ n ω, ∃ m', run n { m with trial := pointDict ks (x0 n), maxIter := N, samples := { m.samples with burnIn := burnIn, thin := thin } } r
          ((List.ofFn ω).map fun w => s.input (fun k sg => sg * dval (pointDict ks w.1) k) w.2) m' ∧
        ∀ b, b < m.samples.axes.nBins → m'.samples.hist.getBinContent b = .ok (cnt N n ω b)) ∧
    ∀ B : (N : ℕ) → Y → (Fin N → (Fin ks.length → ℝ) × ℝ) → Finset ℕ, (∀ N n ω, ∀ b ∈ B N n ω, b < m.samples.axes.nBins) → ∀ q : ℝ, q ≤ 1 → ∀ ε : ℝ, 0 < ε →
      Tendsto (fun N => (chainNoise ks.length N).real
        {ω | coverageOf lo hi prior law (fun n : Y => {x | (∑ b ∈ B N n ω, cnt N n ω b) / recordedCount burnIn thin N < q ∨
          x ∈ regionOf m.samples.axes as ks (B N n ω)}) < q - ε}) atTop (𝓝 0)

end Oxsx
