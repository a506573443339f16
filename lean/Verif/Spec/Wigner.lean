import Verif.Model.Coeff
/-
The Wigner 3-j symbols, by the formula of Racah: the values which `gsl_sf_coupling_3j` of the C++ code and
`wigner_3j` of the Python code compute.
-/
namespace Trv.Wc

open Trv

/-- The alternating sum of Racah's formula. -/
def wcore (a b c : ℕ) (m1 m2 : ℤ) : ℚ :=
  ∑ t ∈ Finset.range (a + b - c + 1), (-1) ^ t * rfact t * rfact ((c : ℤ) - b + t + m1) *
    rfact ((c : ℤ) - a + t - m2) * rfact ((a : ℤ) + b - c - t) * rfact ((a : ℤ) - t - m1) *
    rfact ((b : ℤ) - t + m2)

/-- The factorials under the root of Racah's formula. -/
def wfacts (a b c : ℕ) (m1 m2 m3 : ℤ) : ℕ :=
  (a + m1).toNat.factorial * (a - m1).toNat.factorial * ((b + m2).toNat.factorial * (b - m2).toNat.factorial) *
    ((c + m3).toNat.factorial * (c - m3).toNat.factorial)

/-- The Wigner 3-j symbol of integer degrees and orders. -/
noncomputable def wigner3j (j1 j2 j3 m1 m2 m3 : ℤ) : ℝ :=
  if 0 ≤ j1 ∧ 0 ≤ j2 ∧ 0 ≤ j3 ∧ m1 + m2 + m3 = 0 ∧ |m1| ≤ j1 ∧ |m2| ≤ j2 ∧ |m3| ≤ j3 then
    (-1) ^ (j1 - j2 - m3).natAbs *
      Real.sqrt (delta2 j1.toNat j2.toNat j3.toNat * wfacts j1.toNat j2.toNat j3.toNat m1 m2 m3) *
      wcore j1.toNat j2.toNat j3.toNat m1 m2
  else 0

end Trv.Wc
