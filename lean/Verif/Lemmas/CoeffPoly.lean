import Verif.Lemmas.Coeff
import Verif.Props.TripoSH
/-
Products of the basis functions of the three-point window convolution as polynomials with rational coefficients.
-/
namespace Trv.Wc

open Trv Real

/-- A term with a rational coefficient. -/
abbrev MonoQ := ℚ × ℕ × ℕ × ℕ

/-- The term with a real coefficient. -/
noncomputable def MonoQ.toReal (m : MonoQ) : Mono := ((m.1 : ℝ), m.2.1, m.2.2.1, m.2.2.2)

/-- The polynomial with real coefficients. -/
noncomputable def toReals (l : List MonoQ) : List Mono := l.map MonoQ.toReal

/-- Product of polynomials. -/
def pmulQ (l k : List MonoQ) : List MonoQ :=
  l.flatMap fun a => k.map fun b => (a.1 * b.1, a.2.1 + b.2.1, a.2.2.1 + b.2.2.1, a.2.2.2 + b.2.2.2)

theorem toReals_pmulQ (l k : List MonoQ) : toReals (pmulQ l k) = pmul (toReals l) (toReals k) := by
  unfold toReals pmulQ pmul
  rw [List.map_flatMap, List.flatMap_map]
  congr 1
  funext a
  rw [List.map_map, List.map_map]
  congr 1
  funext b
  simp [MonoQ.toReal]

/-- Integral of a power of a cosine. -/
def muQ (a : ℕ) : ℚ := (1 - (-1) ^ (a + 1)) / (a + 1)

theorem mu1_muQ (a : ℕ) : mu1 a 0 = (muQ a : ℚ) := by
  rw [mu1_zero, muQ]; push_cast; rfl

/-- Average of a term of unit coefficient. -/
def momentQ (a b k : ℕ) : ℚ :=
  if k = 0 then muQ a * muQ b / 4 else if k = 2 then (muQ a - muQ (a + 2)) * (muQ b - muQ (b + 2)) / 8 else 0

theorem moment_momentQ (a b : ℕ) {k : ℕ} (hk : k ≤ 3) : moment a b k = (momentQ a b k : ℚ) := by
  interval_cases k
  · rw [moment_zero, mu1_muQ, mu1_muQ]; simp [momentQ]
  · rw [moment_one]; simp [momentQ]
  · rw [moment_two, mu1_two, mu1_two]; simp only [mu1_muQ]; simp [momentQ]
  · rw [moment_three]; simp [momentQ]

/-- Average of a polynomial. -/
def avgQ (l : List MonoQ) : ℚ := (l.map fun m : MonoQ => m.1 * momentQ m.2.1 m.2.2.1 m.2.2.2).sum

theorem average_avgQ (l : List MonoQ) (h : ∀ m ∈ l, m.2.2.2 ≤ 3) : average (pval (toReals l)) = (avgQ l : ℚ) := by
  rw [average_pval]
  unfold toReals avgQ
  induction l with
  | nil => simp
  | cons m l ih =>
    simp only [List.map_cons, List.sum_cons]
    rw [ih fun k hk => h k (List.mem_cons_of_mem _ hk)]
    simp only [MonoQ.toReal]
    rw [moment_momentQ _ _ (h m (List.mem_cons_self))]
    push_cast
    rfl

/-- The basis functions. -/
def polyQ (m : Multipole) : List MonoQ :=
  if m = m000 then [(1, 0, 0, 0)]
  else if m = m110 then [(1, 1, 1, 0), (1, 0, 0, 1)]
  else if m = m202 then [(3 / 2, 2, 0, 0), (-1 / 2, 0, 0, 0)]
  else if m = m022 then [(3 / 2, 0, 2, 0), (-1 / 2, 0, 0, 0)]
  else if m = m112 then [(1, 1, 1, 0), (-1 / 2, 0, 0, 1)]
  else []

theorem mem_poles19 {P : Multipole → Prop} (h0 : P m000) (h1 : P m110) (h2 : P m022) (h3 : P m112) (h4 : P m202) :
    ∀ m ∈ poles19, P m := by
  intro m hm
  simp only [poles19, List.mem_cons, List.not_mem_nil, or_false] at hm
  rcases hm with rfl | rfl | rfl | rfl | rfl <;> assumption

theorem tripole_polyQ : ∀ m ∈ poles19, tripole m = pval (toReals (polyQ m)) := by
  apply mem_poles19
  · funext u v phi; rw [tripole_000]; simp [polyQ, toReals, MonoQ.toReal]
  · funext u v phi; rw [tripole_110, polyQ, if_neg (by decide), if_pos rfl]; simp [toReals, MonoQ.toReal]
  · funext u v phi
    rw [tripole_022, polyQ, if_neg (by decide), if_neg (by decide), if_neg (by decide), if_pos rfl]; simp [toReals, MonoQ.toReal]
  · funext u v phi
    rw [tripole_112, polyQ, if_neg (by decide), if_neg (by decide), if_neg (by decide), if_neg (by decide), if_pos rfl]
    simp [toReals, MonoQ.toReal]
  · funext u v phi
    rw [tripole_202, polyQ, if_neg (by decide), if_neg (by decide), if_pos rfl]; simp [toReals, MonoQ.toReal]

theorem low_degree : ∀ m ∈ poles19, ∀ q ∈ poles19, ∀ z ∈ poles19,
    (∀ k ∈ pmulQ (pmulQ (polyQ q) (polyQ z)) (polyQ m), k.2.2.2 ≤ 3) ∧ (∀ k ∈ pmulQ (polyQ m) (polyQ m), k.2.2.2 ≤ 3) := by
  decide +kernel

theorem multipole3_avgQ : ∀ m ∈ poles19, ∀ q ∈ poles19, ∀ z ∈ poles19,
    multipole3 m (fun u v phi => tripole q u v phi * tripole z u v phi) =
      ((avgQ (pmulQ (pmulQ (polyQ q) (polyQ z)) (polyQ m)) / avgQ (pmulQ (polyQ m) (polyQ m)) : ℚ) : ℝ) := by
  intro m hm q hq z hz
  obtain ⟨h1, h2⟩ := low_degree m hm q hq z hz
  unfold multipole3
  rw [tripole_polyQ m hm, tripole_polyQ q hq, tripole_polyQ z hz]
  simp only [← pval_pmul]
  rw [show (fun u v phi => pval (pmul (pmul (toReals (polyQ q)) (toReals (polyQ z))) (toReals (polyQ m))) u v phi) =
      pval (toReals (pmulQ (pmulQ (polyQ q) (polyQ z)) (polyQ m))) by rw [toReals_pmulQ, toReals_pmulQ],
    show (fun u v phi => pval (pmul (toReals (polyQ m)) (toReals (polyQ m))) u v phi) = pval (toReals (pmulQ (polyQ m) (polyQ m))) by
      rw [toReals_pmulQ], average_avgQ _ h1, average_avgQ _ h2]
  push_cast
  rfl

/-- The degrees of the multipoles. -/
def degs (m : Multipole) : ℕ × ℕ × ℕ := (degrees3 m).getD (0, 0, 0)

theorem coeffQ_table : ∀ m ∈ poles19, ∀ q ∈ poles19, ∀ z ∈ poles19,
    avgQ (pmulQ (pmulQ (polyQ q) (polyQ z)) (polyQ m)) / avgQ (pmulQ (polyQ m) (polyQ m)) = coeffQ (degs m) (degs z) (degs q) := by
  decide +kernel

theorem poles19_val : ∀ m ∈ poles19, degrees3 m = some (degs m) ∧ Val (degs m) := by decide +kernel

end Trv.Wc
