import Verif.Props.ConvergeMarginal
/-
Specification for C112: what the histograms a chain keeps should converge to.
-/
namespace Oxsx
open MeasureTheory ProbabilityTheory

/-- The law of the random numbers of `N` Metropolis steps in `k` parameters: standard Gaussians for the proposals, a uniform number for each decision. -/
noncomputable def chainNoise (k N : Nat) : Measure (Fin N → (Fin k → ℝ) × ℝ) :=
  Measure.pi fun _ : Fin N => (Measure.pi fun _ : Fin k => gaussianReal 0 1).prod (volume.restrict (Set.Ico (0 : ℝ) 1))

/-- `run m r ins m'` says that the chain `m`, run with these random numbers, ends as `m'`. Started anywhere between the limits, with any burn-in and thinning, every run ends, and the
fraction of the recorded steps in each bin of its full histogram differs from the probability of the bin under the density `P` by at most `K / recorded steps` in the mean square. -/
def HistogramConverges (ks : List String) (lo hi : Fin ks.length → ℝ) (m : MCMC ℝ) (s : MetropolisSampler ℝ) (as : List (BinAxis ℝ)) (P : (Fin ks.length → ℝ) → ℝ)
    (run : MCMC ℝ → (String → ℝ) → List (MCInput ℝ) → MCMC ℝ → Prop) : Prop :=
  ∃ K : ℝ, ∀ x0 ∈ limitBox lo hi, ∀ burnIn thin : Int, thin ≠ 0 → ∀ (N : Nat) (r : String → ℝ), 0 < N →
    ∃ cnt : (Fin N → (Fin ks.length → ℝ) × ℝ) → Nat → ℝ,
      (∀ ω, ∃ m', run { m with trial := pointDict ks x0, maxIter := N, samples := { m.samples with burnIn := burnIn, thin := thin } } r
          ((List.ofFn ω).map fun w => s.input (fun k sg => sg * dval (pointDict ks w.1) k) w.2) m' ∧
        ∀ b, b < m.samples.axes.nBins → m'.samples.hist.getBinContent b = .ok (cnt ω b)) ∧
      ∀ b, b < m.samples.axes.nBins → 0 < recordedCount burnIn thin N →
        Integrable (fun ω => (cnt ω b / recordedCount burnIn thin N - (sampledLaw lo hi P).real (binRegion m.samples.axes as ks b)) ^ 2) (chainNoise ks.length N) ∧
        ∫ ω, (cnt ω b / recordedCount burnIn thin N - (sampledLaw lo hi P).real (binRegion m.samples.axes as ks b)) ^ 2 ∂(chainNoise ks.length N) ≤ K / recordedCount burnIn thin N

/-- The same for the histograms kept by default, one for each parameter, with `m.nGuess` equal bins between its limits. -/
def MarginalsConverge (ks : List String) (lo hi : Fin ks.length → ℝ) (m : MCMC ℝ) (s : MetropolisSampler ℝ) (P : (Fin ks.length → ℝ) → ℝ)
    (run : MCMC ℝ → (String → ℝ) → List (MCInput ℝ) → MCMC ℝ → Prop) : Prop :=
  ∃ K : ℝ, ∀ x0 ∈ limitBox lo hi, ∀ burnIn thin : Int, thin ≠ 0 → ∀ (N : Nat) (r : String → ℝ), 0 < N →
    ∃ one : Fin ks.length → (Fin N → (Fin ks.length → ℝ) × ℝ) → Nat → ℝ,
      (∀ ω, ∃ m', run { m with trial := pointDict ks x0, maxIter := N, samples := { m.samples with burnIn := burnIn, thin := thin } } r
          ((List.ofFn ω).map fun w => s.input (fun k sg => sg * dval (pointDict ks w.1) k) w.2) m' ∧
        ∀ i, ∃ p, m'.samples.proj1.find ks[i] = some p ∧ p.nBins = m.nGuess ∧ ∀ b, b < m.nGuess → p.getBinContent b = .ok (one i ω b)) ∧
      (0 < recordedCount burnIn thin N → ∀ i b, b < m.nGuess →
        Integrable (fun ω => (one i ω b / recordedCount burnIn thin N - (sampledLaw lo hi P).real {x | x i ∈ evenBin (lo i) (hi i) m.nGuess b}) ^ 2) (chainNoise ks.length N) ∧
        ∫ ω, (one i ω b / recordedCount burnIn thin N - (sampledLaw lo hi P).real {x | x i ∈ evenBin (lo i) (hi i) m.nGuess b}) ^ 2 ∂(chainNoise ks.length N) ≤ K / recordedCount burnIn thin N)

end Oxsx
