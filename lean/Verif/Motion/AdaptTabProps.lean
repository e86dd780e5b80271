import Verif.Motion.LimitClaims

/-! # C103: the exact tableaus behind the adaptive methods -/

namespace Mapleaf.Motion.Lim
open Set Mapleaf.Motion.RK

/-! ## Deciding the order conditions -/

/-- `aᵢⱼ`, `bᵢ`, `cᵢ` of a rational tableau -/
def qA (rows : Tableau ℚ) (i j : ℕ) : ℚ := (([0] :: rows).getD i []).tail.getD j 0
def qb (b : List ℚ) (i : ℕ) : ℚ := b.getD i 0
def qc (rows : Tableau ℚ) (i : ℕ) : ℚ := (([0] :: rows).getD i []).headD 0

theorem coef_A (rows : Tableau ℚ) (b : List ℚ) (i j : ℕ) : (coefOf (castT rows) (castL b)).A i j = (qA rows i j : ℝ) := by
  cases i with
  | zero => simp [coefOf, qA]
  | succ i => simp only [coefOf, qA, List.getD_cons_succ, castT_getD, castL_tail, castL_getD]

theorem coef_b (rows : Tableau ℚ) (b : List ℚ) (i : ℕ) : (coefOf (castT rows) (castL b)).b i = (qb b i : ℝ) := by simp only [coefOf, qb, castL_getD]

theorem coef_c (rows : Tableau ℚ) (b : List ℚ) (i : ℕ) : (coefOf (castT rows) (castL b)).c i = (qc rows i : ℝ) := by
  cases i with
  | zero => simp [coefOf, qc]
  | succ i => simp only [coefOf, qc, List.getD_cons_succ, castT_getD, castL_headD]

theorem coef_s (rows : Tableau ℚ) (b : List ℚ) : (coefOf (castT rows) (castL b)).s = rows.length + 1 := by simp [coefOf, castT_length]

/-- `∑_{i<n} gᵢ` -/
def sumQ (n : ℕ) (g : ℕ → ℚ) : ℚ := ((List.range n).map g).sum

theorem sumQ_cast (n : ℕ) (g : ℕ → ℚ) : ((sumQ n g : ℚ) : ℝ) = ∑ i ∈ Finset.range n, (g i : ℝ) := by
  induction n with
  | zero => simp [sumQ]
  | succ n ih =>
    have : sumQ (n + 1) g = sumQ n g + g n := by simp [sumQ, List.range_succ]
    rw [this, Finset.sum_range_succ, Rat.cast_add, ih]

def dotQ (rows : Tableau ℚ) (b : List ℚ) (w : ℕ → ℚ) : ℚ := sumQ (rows.length + 1) fun i => qb b i * w i
def rowQ (rows : Tableau ℚ) (w : ℕ → ℚ) (i : ℕ) : ℚ := sumQ i fun j => qA rows i j * w j

theorem row_cast (rows : Tableau ℚ) (b : List ℚ) (w : ℕ → ℚ) (w' : ℕ → ℝ) (h : ∀ i, w' i = (w i : ℝ)) (i : ℕ) :
    (coefOf (castT rows) (castL b)).row w' i = (rowQ rows w i : ℝ) := by
  unfold Coef.row rowQ
  rw [sumQ_cast]
  exact Finset.sum_congr rfl fun j _ => by rw [coef_A, h]; push_cast; rfl

theorem dot_cast (rows : Tableau ℚ) (b : List ℚ) (w : ℕ → ℚ) (w' : ℕ → ℝ) (h : ∀ i, w' i = (w i : ℝ)) :
    (coefOf (castT rows) (castL b)).dot w' = (dotQ rows b w : ℝ) := by
  unfold Coef.dot dotQ
  rw [sumQ_cast, coef_s]
  exact Finset.sum_congr rfl fun j _ => by rw [coef_b, h]; push_cast; rfl

/-- the sums of the rows -/
def rowsB (rows : Tableau ℚ) : Bool := (List.range (rows.length + 1)).all fun i => decide (sumQ i (qA rows i) = qc rows i)

theorem rows_of_B (rows : Tableau ℚ) (b : List ℚ) (h : rowsB rows = true) : (coefOf (castT rows) (castL b)).Rows := by
  simp only [rowsB, List.all_eq_true, List.mem_range, decide_eq_true_eq] at h
  intro i hi
  rw [coef_s] at hi
  rw [coef_c, ← h i hi, sumQ_cast]
  exact Finset.sum_congr rfl fun j _ => coef_A rows b i j

/-- the order conditions up to order `p ≤ 4` -/
def orderB (rows : Tableau ℚ) (b : List ℚ) (p : ℕ) : Bool :=
  decide (1 ≤ p → dotQ rows b (fun _ => 1) = 1) && decide (2 ≤ p → dotQ rows b (qc rows) = 1 / 2) &&
  decide (3 ≤ p → dotQ rows b (fun i => qc rows i ^ 2) = 1 / 3) && decide (3 ≤ p → dotQ rows b (rowQ rows (qc rows)) = 1 / 6) &&
  decide (4 ≤ p → dotQ rows b (fun i => qc rows i ^ 3) = 1 / 4) && decide (4 ≤ p → dotQ rows b (fun i => qc rows i * rowQ rows (qc rows) i) = 1 / 8) &&
  decide (4 ≤ p → dotQ rows b (rowQ rows fun j => qc rows j ^ 2) = 1 / 12) && decide (4 ≤ p → dotQ rows b (rowQ rows (rowQ rows (qc rows))) = 1 / 24)

theorem order_of_B (rows : Tableau ℚ) (b : List ℚ) (p : ℕ) (h : orderB rows b p = true) : (coefOf (castT rows) (castL b)).Order p := by
  simp only [orderB, Bool.and_eq_true, decide_eq_true_eq] at h
  obtain ⟨⟨⟨⟨⟨⟨⟨h1, h2⟩, h3⟩, h4⟩, h5⟩, h6⟩, h7⟩, h8⟩ := h
  have hc := coef_c rows b
  have hr := row_cast rows b (qc rows) _ hc
  refine ⟨fun hp => ?_, fun hp => ?_, fun hp => ?_, fun hp => ?_, fun hp => ?_, fun hp => ?_, fun hp => ?_, fun hp => ?_⟩
  · rw [dot_cast rows b (fun _ => 1) _ (by simp), h1 hp]; norm_num
  · rw [dot_cast rows b (qc rows) _ hc, h2 hp]; norm_num
  · rw [dot_cast rows b (fun i => qc rows i ^ 2) _ (fun i => by rw [hc]; push_cast; rfl), h3 hp]; norm_num
  · rw [dot_cast rows b _ _ hr, h4 hp]; norm_num
  · rw [dot_cast rows b (fun i => qc rows i ^ 3) _ (fun i => by rw [hc]; push_cast; rfl), h5 hp]; norm_num
  · rw [dot_cast rows b (fun i => qc rows i * rowQ rows (qc rows) i) _ (fun i => by rw [hc, hr]; push_cast; rfl), h6 hp]; norm_num
  · rw [dot_cast rows b _ _ (row_cast rows b (fun j => qc rows j ^ 2) _ (fun i => by rw [hc]; push_cast; rfl)), h7 hp]; norm_num
  · rw [dot_cast rows b _ _ (row_cast rows b _ _ hr), h8 hp]; norm_num

/-- all coefficients at most `R`, all stages inside the step -/
def boundedB (R : ℚ) (rows : Tableau ℚ) (b : List ℚ) : Bool :=
  rows.all (fun r => r.tail.all (fun x => decide (|x| ≤ R)) && decide (0 ≤ r.headD 0 ∧ r.headD 0 ≤ 1)) && b.all (fun x => decide (|x| ≤ R))

theorem getD_bound (R : ℚ) (hR : 0 ≤ R) (l : List ℚ) (h : ∀ x ∈ l, |x| ≤ R) (j : ℕ) : |l.getD j 0| ≤ R := by
  rw [List.getD_eq_getElem?_getD]
  cases hj : l[j]? with
  | none => simpa using hR
  | some x => exact h x (List.mem_of_getElem? hj)

theorem bounded_of_boundedB (R : ℚ) (hR : 0 ≤ R) (rows : Tableau ℚ) (b : List ℚ) (h : boundedB R rows b = true) : (coefOf (castT rows) (castL b)).Bounded R := by
  simp only [boundedB, Bool.and_eq_true, List.all_eq_true, decide_eq_true_eq] at h
  have hrow : ∀ i, (∀ x ∈ (rows.getD i []).tail, |x| ≤ R) ∧ 0 ≤ (rows.getD i []).headD 0 ∧ (rows.getD i []).headD 0 ≤ 1 := fun i => by
    rw [List.getD_eq_getElem?_getD]
    cases hi : rows[i]? with
    | none => simp
    | some r => exact h.1 r (List.mem_of_getElem? hi)
  refine ⟨fun i j => ?_, fun i => ?_, fun i => ?_⟩
  · rw [coef_A]
    have : |qA rows i j| ≤ R := by
      cases i with
      | zero => simpa [qA] using hR
      | succ i => exact getD_bound R hR _ (hrow i).1 j
    exact_mod_cast this
  · rw [coef_b]
    have : |qb b i| ≤ R := getD_bound R hR _ h.2 i
    exact_mod_cast this
  · rw [coef_c]
    have : 0 ≤ qc rows i ∧ qc rows i ≤ 1 := by
      cases i with
      | zero => simp [qc]
      | succ i => exact (hrow i).2
    exact ⟨by exact_mod_cast this.1, by exact_mod_cast this.2⟩

/-! ## The methods -/

/-- the midpoint rule -/
def ideal12 : Tableau ℚ := [[1 / 2, 1 / 2], [0, 1]]
/-- Bogacki and Shampine's third-order method -/
def ideal23 : Tableau ℚ := [[1 / 2, 1 / 2], [3 / 4, 0, 3 / 4], [1, 2 / 9, 1 / 3, 4 / 9], [2 / 9, 1 / 3, 4 / 9, 0]]
/-- Dormand and Prince's fifth-order method -/
def ideal45 : Tableau ℚ :=
  [[1 / 5, 1 / 5], [3 / 10, 3 / 40, 9 / 40], [4 / 5, 44 / 45, -56 / 15, 32 / 9], [8 / 9, 19372 / 6561, -25360 / 2187, 64448 / 6561, -212 / 729],
   [1, 9017 / 3168, -355 / 33, 46732 / 5247, 49 / 176, -5103 / 18656], [1, 35 / 384, 0, 500 / 1113, 125 / 192, -2187 / 6784, 11 / 84],
   [35 / 384, 0, 500 / 1113, 125 / 192, -2187 / 6784, 11 / 84, 0]]
/-- Dormand and Prince's eighth-order method has irrational coefficients, for which the code has fractions that satisfy the order conditions only
approximately. These are fractions that satisfy those up to order four exactly. -/
def ideal78 : Tableau ℚ :=
  [[1/18, 1/18],
   [1/12, 1/48, 1/16],
   [1/8, 1/32, 0, 3/32],
   [5/16, 5/16, 0, -75/64, 75/64],
   [3/8, 3/80, 0, 0, 3/16, 3/20],
   [59/400, 215595617/4500000000, 0, 0, 202047683/1800000000, -28693883/1125000000, 23124283/1800000000],
   [93/200, 4075917264093991964063/240922078529422091250000, 0, 0, 18688242681383132156779/48184415705884418250000, 2166935681161306233323/60230519632355522812500, 545815736/2771057229, -180193667/1043307555],
   [5490023248/9719169821, 1366877690405903932602631595772717879214758070929056512647842/19782369016229250376750144102992727150776253454542099865915625, 0, 0, -7528156514068185008185581772114532354293526599384239559498367/11869421409737550226050086461795636290465752072725259919549375, -9566609752843474630603488574162165701364908180994979815192316/59347107048687751130250432308978181452328760363626299597746875, 100302831/723423059, 790204164/839813087, 800635310/3783071287],
   [13/20, 1161605217839825386991743708388404215748956826231974732319/6328308034252683673089962534675085916125203299348181106250, 0, 0, -56243249649651493782780618396133636166695555334940008857589/22781908923309661223123865124830309298050731877653451982500, -8295089185981594370620620479249547430560086371595733280168/28477386154137076528904831406037886622563414847066814978125, -12992083/490766935, 6005943493/2108947869, 393006217/1396673457, 123872331/1001029789],
   [1201146811/1299019798, -81543232652270547690572127250630771404014293370155657635213639182299812424039838063600896087/67090314008052948662474071157606725774266652096916269794913369279045937632560151330043250000, 0, 0, 2348998156536541950013261372039427193894021676559369386181139372710101923823878303249872753767/140889659416911192191195549430974124125959969403524166569318075485996469028376317793090825000, 133114381440717863940298463277813396118624016339987867817038635421175611594030869724113115041/145362347017448055435360487508147905844244412876651917888978966771266198203880327881760375000, -10304129995/1701304382, -48777925059/3047939560, 15336726248/1032824649, -45442868181/3398467696, 3065993473/597172653],
   [1, 7913969567266376568994204957344301844813859105684530860165661969788293331249068786861674297/30572284438132932571168693470609216200189870699314668589193135501107739712685735738908046250, 0, 0, -131370243731818664207090030434471998657342883072239228768644778718944984751251129970808047918/27515055994319639314051824123548294580170883629383201730273821950996965741417162165017241625, -778154561392801844167362517606818069300436358414522621494004321662467942211384059029324679517/1788478639630776555413368568030639147711107435909908112467798426814802773192115540726120705625, -703635378/230739211, 5731566787/1027545527, 5232866602/850066563, -4093664535/808688257, 3962137247/1805957418, 65686358/487910083],
   [1, 855544273531001445409225799774440200053665145059781152050442902343620762357279296586747961/1040266977810002192999392893068486610088070455754330501025821635133018332221180356349630000, 0, 0, -90960995959668975078970645264673210044340487794766419392588604194788027497853442046415776/7802002333575016447495446698013649575660528418157478757693662263497637491658852672622225, -591096952239072744792719689605115344150211030305652136250431970641435324793782652817300927/780200233357501644749544669801364957566052841815747875769366226349763749165885267262222500, 652783627/914296604, 11173962825/925320556, -13158990841/6184727034, 3936647629/1978049680, -160528059/685178525, 248638103/1413531060, 0],
   [130058535480122878032591788973245680752310489966726708675577572227343592013330989157338732646269/3115361712137503170494079478652029178730649642250950257088154226201442187230858638087911425691460, 0, 0, 0, 0, -495876884840181065334446473461722218765147693630469740855984012179120219329005356470927239022/8942399665785615989663158700340707046657140853918801995469004749894790313265176517201495344385, 118779633615818090681067766710457890671184589515816584655283946216179057787726976659649234745600/496336301449863856374415171419651243708162640136396913718883352525641954202192352914005960114643, 707655904702228829804039757074792255862427499113641780815293159282649080352693691095758968217150/1005892213834227718608681594378324675505404672625094955890327762866736841809285712806351062024107, -1041891430/1371343529, 760417239/1151165299, 118820643/751138087, -528747749/2220607170, 1/4]]

/-- the exact tableau behind an adaptive method -/
def ideal (m : String) : Tableau ℚ :=
  if m = "RK12Adaptive" then ideal12 else if m = "RK23Adaptive" then ideal23 else if m = "RK45Adaptive" then ideal45 else ideal78

/-- the adaptive methods and the orders shown for them -/
def adaptiveOrders : List (String × ℕ) := [("RK12Adaptive", 2), ("RK23Adaptive", 3), ("RK45Adaptive", 4), ("RK78Adaptive", 4)]

/-- a method with a tableau whose last row is the weights -/
noncomputable def coefI (tab : Tableau ℚ) : Coef := coefOf (rowsOf tab) (weightsOf tab)

set_option maxRecDepth 100000 in
/-- **C103.** The exact tableaus satisfy the order conditions, and their coefficients are at most 17. -/
theorem ideal_fit (mp : String × ℕ) (h : mp ∈ adaptiveOrders) :
    (coefI (ideal mp.1)).Bounded 17 ∧ (coefI (ideal mp.1)).Rows ∧ (coefI (ideal mp.1)).Order mp.2 ∧ (coefI (ideal mp.1)).c 0 = 0 ∧ 1 ≤ mp.2 ∧ mp.2 ≤ 4 := by
  have hb (tab : Tableau ℚ) (h : boundedB 17 (tab.take (tab.length - 1)) (tab.getLast?.getD []) = true) : (coefI tab).Bounded 17 := by
    have := bounded_of_boundedB 17 (by norm_num) _ _ h
    exact_mod_cast this
  simp only [adaptiveOrders, List.mem_cons, List.not_mem_nil, or_false] at h
  rcases h with rfl | rfl | rfl | rfl
  · exact ⟨hb _ (by decide +kernel), rows_of_B _ _ (by decide +kernel), order_of_B _ _ 2 (by decide +kernel), rfl, by norm_num, by norm_num⟩
  · exact ⟨hb _ (by decide +kernel), rows_of_B _ _ (by decide +kernel), order_of_B _ _ 3 (by decide +kernel), rfl, by norm_num, by norm_num⟩
  · exact ⟨hb _ (by decide +kernel), rows_of_B _ _ (by decide +kernel), order_of_B _ _ 4 (by decide +kernel), rfl, by norm_num, by norm_num⟩
  · exact ⟨hb _ (by decide +kernel), rows_of_B _ _ (by decide +kernel), order_of_B _ _ 4 (by decide +kernel), rfl, by norm_num, by norm_num⟩

end Mapleaf.Motion.Lim
