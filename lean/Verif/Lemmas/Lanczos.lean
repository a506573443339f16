import Verif.Model.Lanczos
import Mathlib.Tactic.FieldSimp
import Mathlib.Tactic.Ring
import Mathlib.Tactic.NormNum
import Mathlib.Tactic.Linarith
/-
The series of the Lanczos approximation has no zeros in the right half plane: its numerator is a sum of two consecutive convergents
of a continued fraction with positive coefficients (Routh and Hurwitz).
-/
namespace Trv.Lz

/-- Numerator and denominator of `a z + 1 / (b z + 1 / …)`. -/
def cont : List ℚ → ℂ → ℂ × ℂ
  | [], _ => (1, 0)
  | a :: as, z => ((a : ℂ) * z * (cont as z).1 + (cont as z).2, (cont as z).1)

theorem cont_good {z : ℂ} (hz : 0 < z.re) : ∀ as : List ℚ, (∀ a ∈ as, 0 < a) →
    (cont as z).1 ≠ 0 ∧ 0 ≤ ((cont as z).2 / (cont as z).1).re
  | [], _ => by simp [cont]
  | a :: as, h => by
    obtain ⟨h1, h2⟩ := cont_good hz as fun b hb => h b (List.mem_cons_of_mem _ hb)
    have ha : (0 : ℝ) < (a : ℝ) := by exact_mod_cast h a List.mem_cons_self
    have e : ((a : ℂ) * z * (cont as z).1 + (cont as z).2) / (cont as z).1 = (a : ℂ) * z + (cont as z).2 / (cont as z).1 := by
      field_simp
    have hre : 0 < (((a : ℂ) * z * (cont as z).1 + (cont as z).2) / (cont as z).1).re := by
      rw [e, Complex.add_re]
      have : ((a : ℂ) * z).re = (a : ℝ) * z.re := by
        rw [show (a : ℂ) = ((a : ℝ) : ℂ) by push_cast; rfl, Complex.re_ofReal_mul]
      rw [this]
      have := mul_pos ha hz
      linarith
    have hne : (a : ℂ) * z * (cont as z).1 + (cont as z).2 ≠ 0 := by
      intro h0
      rw [h0] at hre
      simp at hre
    refine ⟨hne, ?_⟩
    show 0 ≤ ((cont as z).1 / ((a : ℂ) * z * (cont as z).1 + (cont as z).2)).re
    rw [← inv_div, Complex.inv_re]
    exact div_nonneg hre.le (Complex.normSq_nonneg _)

theorem cont_sum_ne {z : ℂ} (hz : 0 < z.re) (as : List ℚ) (h : ∀ a ∈ as, 0 < a) :
    (cont as z).1 + (cont as z).2 ≠ 0 := by
  obtain ⟨h1, h2⟩ := cont_good hz as h
  intro h0
  have : (1 : ℂ) + (cont as z).2 / (cont as z).1 = 0 := by
    have e : (1 : ℂ) + (cont as z).2 / (cont as z).1 = ((cont as z).1 + (cont as z).2) / (cont as z).1 := by
      field_simp
    rw [e, h0, zero_div]
  have := congrArg Complex.re this
  simp only [Complex.add_re, Complex.one_re, Complex.zero_re] at this
  linarith

/-- The numerator of the series. -/
def numer : List ℚ :=
  [42620783191678761209721 / 12500000000000000,
   26014924320159789074297880413943 / 6250000000000000000000000,
   277860052436705081351680581834307 / 125000000000000000000000000,
   84786212687791682828105719550107 / 125000000000000000000000000,
   12934725852873034937998471737719 / 100000000000000000000000000,
   315697609133948296996517271747 / 20000000000000000000000000,
   601917100694321370953349591417 / 500000000000000000000000000,
   26229166666671711107931007697 / 500000000000000000000000000,
   999999999999809932277 / 1000000000000000000000]

/-- The coefficients of the continued fraction. -/
def quots : List ℚ :=
  [499999999999904966138500000 / 26229166666671711107931007697,
   687969184028042400759103026440401558275421556489873243809 / 11841563839457570297706112297236288642889510522686044636649,
   140222634163949113703443698633795770701035740879015780016492824742833073837655131874565551611508561885030858433949201 / 1400981476300473082933897986798078204510337770459854447198528367604854135969474494829273545300227947270499115688533840,
   35662009696517328912829421419497967942515907306145086391662778568455890348773675743993261220849426089164853402759177699069136823020798251184350948067980815380730975150996454480 / 241108935019683621174286148951102290198465456610889842915308182040735329332928379459885583398964195246937920234520701332403873024159409623410593210343253017017787474204801166463,
   414580134604774099803541758925971564483935912675750424396965920393351449441564469765078963962870296498114547867940412336371290118775270340959125872504243274867538839243065421883141242931408779091756352345258707422233225058858797736835569 / 2007874788171371972468359639046666153797191260030525219225446619254455467231099819082857269177401898675968861329390546057390005627826562476985232154254973222943753452599916362962940948744902353042194862950102318174673931167092300338335280,
   628051032968619171025512883886202975786290004840396907126124591726771465154861286283488554499822854997898542739248337489245689931025987186218139342589062964667951450336668729284526620786462564777409198312569944709256748758390498308847685710599226033143821670241194089072929690706464710254280264356 / 2194905864938787655896839329624245786989455935875348089250173909203225819912487396850340101440009941147014875622734131058469420747374929172597234769257552976542387857341772949345025286396235571159349020984176791417723522929266709282239653910921718316338175431053188461613636568227430946000922498225,
   154939462967286785649744176928402549286985901416923364662309333464170444155691378503126468056524504832765175690887903115393821496899096949494218431381386101802513269154847385680399413553351084416837179086091461000049727492210000117945571542469978959462182678699417946501835418219380705944935077682969605820226264984794759549745358914302831627935695928689075 / 372860782143699453283140192857515145677554375082731075403040638162373818935685122308215802930228765682913263009133312652654329470029598532375540597672365978933879290159031702208514930204024088388205990841365687509418615617391840706390058482261772227261190355928336905743760188590042549249438617993118991354035508990982050947977503981556306444671667346075188,
   7439080245339229467989857065078103472134818057001413849561251457489681924726375800398677589022760344945598617389700598807651767372218082444667160934674916509022190093341207133395544919534248779937910571387009 / 10209878338846443719682142044615055061125244197038906919915400382977986085862802060358267100956159100370801128184592214349107771941433372556533200343278589752584216387236758901583290033025993726298311500000000]

theorem quots_pos : ∀ a ∈ quots, 0 < a := by decide +kernel

theorem numer_pos : ∀ a ∈ numer, 0 < a := by decide +kernel

/-- The value of a polynomial. -/
def polyAt : List ℚ → ℂ → ℂ
  | [], _ => 0
  | a :: as, z => (a : ℂ) + z * polyAt as z

/-- Sum of polynomials. -/
def padd : List ℚ → List ℚ → List ℚ
  | [], q => q
  | p, [] => p
  | a :: p, b :: q => (a + b) :: padd p q

theorem polyAt_padd (z : ℂ) : ∀ p q, polyAt (padd p q) z = polyAt p z + polyAt q z
  | [], q => by simp [padd, polyAt]
  | a :: p, [] => by simp [padd, polyAt]
  | a :: p, b :: q => by
    simp only [padd, polyAt, polyAt_padd z p q, Rat.cast_add]
    ring

/-- Multiple of a polynomial. -/
def pscale (c : ℚ) (p : List ℚ) : List ℚ := p.map fun a => c * a

theorem polyAt_pscale (z : ℂ) (c : ℚ) : ∀ p, polyAt (pscale c p) z = (c : ℂ) * polyAt p z
  | [] => by simp [pscale, polyAt]
  | a :: p => by
    have := polyAt_pscale z c p
    unfold pscale at this ⊢
    simp only [List.map_cons, polyAt, this, Rat.cast_mul]
    ring

/-- The convergents as polynomials. -/
def contP : List ℚ → List ℚ × List ℚ
  | [] => ([1], [])
  | a :: as => (padd (0 :: pscale a (contP as).1) (contP as).2, (contP as).1)

theorem contP_eq (z : ℂ) : ∀ as, cont as z = (polyAt (contP as).1 z, polyAt (contP as).2 z)
  | [] => by simp [cont, contP, polyAt]
  | a :: as => by
    simp only [cont, contP, contP_eq z as, polyAt_padd, polyAt, polyAt_pscale]
    refine Prod.ext ?_ rfl
    simp only [Rat.cast_zero, zero_add]
    ring

theorem numer_eq : numer = pscale (42620783191678761209721 / 12500000000000000) (padd (contP quots).1 (contP quots).2) := by decide +kernel

theorem numer_ne {z : ℂ} (hz : 0 < z.re) : polyAt numer z ≠ 0 := by
  have h := cont_sum_ne hz quots quots_pos
  rw [contP_eq] at h
  rw [numer_eq, polyAt_pscale, polyAt_padd]
  exact mul_ne_zero (by norm_num) h

/-- Product of a polynomial with `z + i`. -/
def pmul (i : ℚ) (p : List ℚ) : List ℚ := padd (pscale i p) (0 :: p)

theorem polyAt_pmul (z : ℂ) (i : ℚ) (p : List ℚ) : polyAt (pmul i p) z = (z + i) * polyAt p z := by
  unfold pmul
  rw [polyAt_padd, polyAt_pscale]
  simp only [polyAt, Rat.cast_zero, zero_add]
  ring

/-- Product of the factors. -/
def prodP : List ℚ → List ℚ
  | [] => [1]
  | i :: is => pmul i (prodP is)

theorem polyAt_prodP (z : ℂ) : ∀ is, polyAt (prodP is) z = (is.map fun i : ℚ => z + (i : ℂ)).prod
  | [] => by simp [prodP, polyAt]
  | i :: is => by
    rw [prodP, polyAt_pmul, polyAt_prodP z is]
    simp

/-- Numerator of a sum of simple fractions. -/
def fracN : ℚ → List (ℚ × ℚ) → List ℚ
  | c, [] => [c]
  | c, (b, i) :: l => padd (pmul i (fracN c l)) (pscale b (prodP (l.map (·.2))))

theorem polyAt_fracN (z : ℂ) (c : ℚ) : ∀ l : List (ℚ × ℚ), (∀ p ∈ l, z + (p.2 : ℂ) ≠ 0) →
    (c : ℂ) + (l.map fun p => (p.1 : ℂ) / (z + (p.2 : ℂ))).sum =
      polyAt (fracN c l) z / ((l.map (·.2)).map fun i : ℚ => z + (i : ℂ)).prod
  | [], _ => by simp [fracN, polyAt]
  | (b, i) :: l, h => by
    have ih := polyAt_fracN z c l fun p hp => h p (List.mem_cons_of_mem _ hp)
    have h1 : z + (i : ℂ) ≠ 0 := h (b, i) List.mem_cons_self
    have h2 : ((l.map (·.2)).map fun i : ℚ => z + (i : ℂ)).prod ≠ 0 := by
      apply List.prod_ne_zero
      intro h0
      simp only [List.map_map, List.mem_map, Function.comp] at h0
      obtain ⟨p, hp, e⟩ := h0
      exact h p (List.mem_cons_of_mem _ hp) e
    simp only [fracN, List.map_cons, List.sum_cons, List.prod_cons, polyAt_padd, polyAt_pmul, polyAt_pscale, polyAt_prodP]
    rw [show (c : ℂ) + ((b : ℂ) / (z + i) + (l.map fun p => (p.1 : ℂ) / (z + (p.2 : ℂ))).sum) =
      (b : ℂ) / (z + i) + ((c : ℂ) + (l.map fun p => (p.1 : ℂ) / (z + (p.2 : ℂ))).sum) by ring, ih]
    field_simp
    ring

end Trv.Lz
