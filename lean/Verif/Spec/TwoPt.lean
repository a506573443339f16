import Verif.Model.TwoPt
/-
Specification of quantities in two- and three-point measurements.
-/
namespace Trv.Two

/-- The particles as they enter the fluctuation field `data - alpha * rand`: harmonic of the line of
sight and weight. -/
noncomputable def tracers (E : Env) (ell : ℕ) (m : ℤ) (data rand : List Part) (alpha : ℝ) :
    List (ℂ × ℝ) :=
  data.map (fun p => (E.ylm ell m p.los, p.ws * p.wc)) ++
  rand.map (fun p => (E.ylm ell m p.los, -alpha * (p.ws * p.wc)))

/-- The self-contribution of order `n`. -/
noncomputable def selfTerm (n : ℕ) (l : List (ℂ × ℝ)) : ℂ :=
  (l.map fun t => t.1 * ((t.2 ^ n : ℝ) : ℂ)).sum

/-- A complex number is real and non-negative. -/
def RealNonneg (z : ℂ) : Prop := z.im = 0 ∧ 0 ≤ z.re

end Trv.Two
