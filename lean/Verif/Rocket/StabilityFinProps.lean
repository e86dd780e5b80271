import Verif.Rocket.AscentForceProps

/-!
# C97, first part: where the side force of a component acts; fin sets
-/

namespace Mapleaf.Rocket
open Mapleaf.Motion V3 ENV

/-- the side force of a system along the lateral air velocity -/
def push (F : FMS ℝ) (v : V3 ℝ) : ℝ := F.force.x * v.x + F.force.y * v.y

/-- the moment of a system about the point `z` of the axis that tilts the upper end of the axis in the direction of the lateral air velocity,
i.e. away from the wind -/
noncomputable def tilt (F : FMS ℝ) (z : ℝ) (v : V3 ℝ) : ℝ := dot (cross (F.momentAbout ⟨0, 0, z⟩) ⟨0, 0, 1⟩) v

/-- the side force of a system acts at height `h` of the axis -/
def ActsAt (F : FMS ℝ) (v : V3 ℝ) (h : ℝ) : Prop := ∀ z, tilt F z v = (h - z) * push F v

theorem tilt_form (F : FMS ℝ) (z : ℝ) (v : V3 ℝ) :
    tilt F z v = (F.momentAbout ⟨0, 0, z⟩).y * v.x - (F.momentAbout ⟨0, 0, z⟩).x * v.y := by
  simp only [tilt, dot, cross]; ring

theorem actsAt_of (F : FMS ℝ) (v : V3 ℝ) (hl : OnAxis F.loc) (hm : OnAxis F.moment) : ActsAt F v F.loc.z := by
  intro z
  rw [tilt_form]
  simp only [FMS.momentAbout, cross, push, add_x, add_y, sub_x, sub_y, sub_z, hl.1, hl.2, hm.1, hm.2]
  ring

theorem actsAt_axial {F : FMS ℝ} (h : Axial F) (v : V3 ℝ) (z : ℝ) : ActsAt F v z ∧ push F v = 0 := by
  have hp : push F v = 0 := by simp [push, h.1, h.2.1]
  refine ⟨fun y => ?_, hp⟩
  rw [tilt_form, (h.2.2 y).1, (h.2.2 y).2, hp]; ring

theorem tilt_add (a b : FMS ℝ) (z : ℝ) (v : V3 ℝ) : tilt (a.add b) z v = tilt a z v + tilt b z v := by
  rw [tilt_form, tilt_form, tilt_form, (FMS.add_spec a b _).2, add_x, add_y]; ring

theorem push_add (a b : FMS ℝ) (v : V3 ℝ) : push (a.add b) v = push a v + push b v := by
  unfold push
  rw [(FMS.add_spec a b 0).1, add_x, add_y]; ring

/-! ## One fin -/

theorem rawAOA_neg (x s : ℝ) (h : |x| ≤ (1 - 1e-14) * s) : rawAOA (-x) s = -rawAOA x s := by
  unfold rawAOA
  by_cases hs : s ≥ 0.1
  · have hp : 0 < s := by linarith
    have key : ∀ y : ℝ, |y| ≤ (1 - 1e-14) * s → ¬ |y * (1 / s) - 1| < 1e-14 := by
      intro y hy h0
      have h1 := (abs_lt.1 h0).1
      have h2 : y * (1 / s) ≤ 1 - 1e-14 := by
        rw [mul_one_div, div_le_iff₀ hp]; exact (le_abs_self y).trans hy
      linarith
    rw [if_pos hs, if_pos hs, if_neg (key _ (by rwa [abs_neg])), if_neg (key _ h), neg_mul, Real.arcsin_neg]
  · rw [if_neg hs, if_neg hs, neg_zero]

/-- the air speed across the fin in direction `s` -/
def across (s v : V3 ℝ) : ℝ := s.y * v.x - s.x * v.y

/-- the air speed along the span of the fin in direction `s` -/
def along (s v : V3 ℝ) : ℝ := s.x * v.x + s.y * v.y

/-- the parts of the force of an undeflected fin without rotation -/
theorem FinP.force_still (p : FinP) (h : p.Ok) (mach q aref : ℝ) (v : V3 ℝ) (cpx cd : ℝ) (hm0 : 0 ≤ mach)
    (f : FMS ℝ) (hf : p.force mach q aref v 0 0 cpx cd = .ok f) :
    f.force = (q * (p.slices.map fun s => p.law mach s (rawAOA (across p.spanwise v) v.length)).sum) • p.normal0 +
        ⟨0, 0, -(dragToAxial (rawAOA (across p.spanwise v) v.length) * cd * aref * q)⟩ ∧
      f.loc = p.cpRadius • p.spanwise + ⟨0, 0, p.position.z - cpx⟩ ∧ OnAxis f.moment := by
  have haoa : ∀ s : FinSlice, p.aoa v p.normal0 0 s = rawAOA (across p.spanwise v) v.length := by
    intro s
    rw [p.aoa_undeflected h]
    have e := h.unit
    have e1 : dot p.normal0 v + s.radius * 0 = across p.spanwise v := by simp [dot, FinP.normal0, across]; ring
    rw [e1]
    congr 1
    unfold V3.length
    congr 1
    simp only [dot, across, h.sz]
    linear_combination (v.x ^ 2 + v.y ^ 2) * e
  obtain ⟨r, hr⟩ := FinP.deflected_normal p h 0
  have h0 : (⟨Real.cos (0 * Real.pi / 180) * p.spanwise.y, -(Real.cos (0 * Real.pi / 180) * p.spanwise.x),
        -Real.sin (0 * Real.pi / 180)⟩ : V3 ℝ) = p.normal0 := by
    unfold FinP.normal0; simp
  rw [h0] at hr
  unfold FinP.force at hf
  rw [hr] at hf
  simp only at hf
  rw [FinP.normalForce_law p h v p.normal0 0 mach hm0] at hf
  simp only at hf
  split at hf
  · cases hf
  · rename_i mid hmid
    obtain rfl := Except.ok.inj hf
    simp only [haoa]
    refine ⟨?_, ?_, ?_⟩
    · simp only [FMS.make]
      congr 1
      · congr 1; ring
      · have e := h.unit
        ext
        · simp [cross, FinP.normal0, h.sz]
        · simp [cross, FinP.normal0, h.sz]
        · generalize dragToAxial (rawAOA (across p.spanwise v) v.length) = a
          simp only [cross, FinP.normal0, smul_z]
          linear_combination (-(a * cd * aref * q)) * e
    · simp only [FMS.make, Option.getD_some, FinP.cpSpanwise]
      congr 1
      ext <;> simp [h.px, h.py]
    · simp only [FMS.make, Option.getD_some]
      exact ⟨rfl, rfl⟩

/-! ## Fin sets -/

theorem FinSet.fin_turned (p : FinSet) (s : V3 ℝ) : p.fin s = (p.fin ⟨1, 0, 0⟩).turned s := rfl

theorem direction_ok (g : FinGeom) (i : Nat) : (g.direction i).z = 0 ∧ (g.direction i).x ^ 2 + (g.direction i).y ^ 2 = 1 := by
  refine ⟨rfl, ?_⟩
  exact Real.cos_sq_add_sin_sq _

/-- **C97.** The force of a fin set with its fins straight, without rotation: every fin pushes along the air's motion across it, the fins
together as if at the centre of pressure below the fin set's position, except that the drag of the fins, which acts out on the span, tilts the
rocket when it is not the same on opposite sides. -/
theorem FinSet.still_formula (p : FinSet) (h : p.Regular) (s : Ship) (f : Flow) (cg : V3 ℝ) (t : ℝ)
    (hd : ∀ i < p.shape.geom.numFins, p.deflection i t = 0) (hm : 0 ≤ f.mach) (ho : f.omega = 0) (F : FMS ℝ)
    (hF : p.force s f cg t = .ok F) :
    ∃ cpx cd, cpXPos p.cpCoeffs p.shape.geom.aspectRatio p.shape.mac p.macX f.mach = .ok cpx ∧ p.shape.dragCd p.thickK s f = .ok cd ∧
      (∀ z, tilt F z f.v = (p.position.z - cpx - z) * push F f.v +
        p.factor * (p.macY + p.shape.geom.bodyRadius) * cd * s.aref * f.q * ∑ i ∈ Finset.range p.shape.geom.numFins,
          dragToAxial (rawAOA (across (p.shape.geom.direction i) f.v) f.v.length) * along (p.shape.geom.direction i) f.v) ∧
      push F f.v = p.factor * f.q * ∑ i ∈ Finset.range p.shape.geom.numFins, (p.slices.map fun sl =>
        (p.fin (p.shape.geom.direction i)).law f.mach sl (rawAOA (across (p.shape.geom.direction i) f.v) f.v.length)).sum *
          across (p.shape.geom.direction i) f.v := by
  unfold FinSet.force at hF
  simp only [bind, Except.bind] at hF
  split at hF
  · cases hF
  rename_i cd hcd
  split at hF
  · cases hF
  rename_i cpx hcpx
  split at hF
  · cases hF
  rename_i dirs hdirs
  split at hF
  · cases hF
  rename_i fins hfins
  have h0 : p.shape.geom.numFins ≠ 0 := by have := h.two; omega
  have hl := ((directions_spec p.shape.geom).2 h0).1
  rw [hdirs] at hl
  obtain rfl := Except.ok.inj hl
  have hq : dynPressure f.v f.rho = f.q := by unfold dynPressure Flow.q; ring
  have hvel : finAirVel f.v f.omega p.position cg = f.v := by
    rw [ho]
    apply V3.ext' <;> simp [finAirVel, cross]
  have hok : ∀ i, (p.fin (p.shape.geom.direction i)).Ok := fun i =>
    FinP.turned_ok _ (p.fin_ok h) _ (direction_ok _ i).1 (direction_ok _ i).2
  have hex : ∀ i, ∃ G, (p.fin (p.shape.geom.direction i)).force f.mach f.q s.aref f.v 0 0 cpx cd = .ok G := fun i =>
    FinP.force_defined _ (hok i) _ _ _ _ _ _ _ _ hm
  choose G hG using hex
  have hz : f.omega.z = 0 := by rw [ho]; rfl
  have hmap : ((List.range p.shape.geom.numFins).map p.shape.geom.direction).zipIdx.map (fun d : V3 ℝ × Nat =>
      (p.fin d.1).force f.mach (dynPressure f.v f.rho) s.aref (finAirVel f.v f.omega p.position cg) f.omega.z (p.deflection d.2 t) cpx cd) =
      ((List.range p.shape.geom.numFins).map G).map .ok := by
    apply List.ext_getElem
    · simp
    · intro i h1 h2
      have hi : i < p.shape.geom.numFins := by simpa using h1
      simp only [List.getElem_map, List.getElem_zipIdx, List.getElem_range, Nat.zero_add]
      rw [hd i hi, hvel, hz, hq, hG]
  rw [mapE_map_ok _ _ _ hmap] at hfins
  obtain rfl := Except.ok.inj hfins
  obtain rfl := Except.ok.inj hF
  obtain ⟨g1, g2, g3⟩ := finSet_sum p.position p.factor ((List.range p.shape.geom.numFins).map G)
  set S : Nat → ℝ := fun i => (p.slices.map fun sl => (p.fin (p.shape.geom.direction i)).law f.mach sl
    (rawAOA (across (p.shape.geom.direction i) f.v) f.v.length)).sum with hS
  set D : Nat → ℝ := fun i => dragToAxial (rawAOA (across (p.shape.geom.direction i) f.v) f.v.length) with hD
  set u : Nat → V3 ℝ := p.shape.geom.direction with hu
  have hparts : ∀ i, (G i).force = ⟨f.q * S i * (u i).y, -(f.q * S i * (u i).x), -(D i * cd * s.aref * f.q)⟩ ∧
      (G i).loc = ⟨(p.macY + p.shape.geom.bodyRadius) * (u i).x, (p.macY + p.shape.geom.bodyRadius) * (u i).y, p.position.z - cpx⟩ ∧
      OnAxis (G i).moment := by
    intro i
    obtain ⟨a1, a2, a3⟩ := (p.fin (u i)).force_still (hok i) f.mach f.q s.aref f.v cpx cd hm (G i) (hG i)
    refine ⟨?_, ?_, a3⟩
    · have e1 : (f.q * S i) • (p.fin (u i)).normal0 + ⟨0, 0, -(D i * cd * s.aref * f.q)⟩ = (G i).force := a1.symm
      rw [← e1]
      apply V3.ext' <;> simp [FinP.normal0, FinSet.fin, mul_comm]
    · have e2 : (p.macY + p.shape.geom.bodyRadius) • u i + ⟨0, 0, p.position.z - cpx⟩ = (G i).loc := a2.symm
      rw [← e2]
      have hz0 : (u i).z = 0 := rfl
      apply V3.ext' <;> simp [hz0, mul_comm]
  have hmom : ∀ i, ((G i).momentAbout p.position).x = cpx * -(f.q * S i * (u i).x) -
        (p.macY + p.shape.geom.bodyRadius) * (u i).y * (D i * cd * s.aref * f.q) ∧
      ((G i).momentAbout p.position).y = -cpx * (f.q * S i * (u i).y) + (p.macY + p.shape.geom.bodyRadius) * (u i).x * (D i * cd * s.aref * f.q) := by
    intro i
    obtain ⟨a1, a2, a3⟩ := hparts i
    simp only [FMS.momentAbout, a1, a2, cross, add_x, add_y, sub_x, sub_y, sub_z, a3.1, a3.2, h.onAxis.1, h.onAxis.2]
    constructor <;> ring
  have hpush : push (finSetForce p.position p.factor ((List.range p.shape.geom.numFins).map G)) f.v =
      p.factor * f.q * ∑ i ∈ Finset.range p.shape.geom.numFins, S i * across (u i) f.v := by
    unfold push
    rw [g2]
    dsimp only
    rw [List.map_map, List.map_map, list_sum_range, list_sum_range]
    simp only [Finset.mul_sum, Finset.sum_mul]
    rw [← Finset.sum_add_distrib]
    refine Finset.sum_congr rfl fun i _ => ?_
    simp only [Function.comp, (hparts i).1, across]
    ring
  refine ⟨cpx, cd, hcpx, hcd, fun z => ?_, hpush⟩
  rw [tilt_form, FMS.momentAbout_shift _ p.position, g3]
  have hx : (cross (p.position - ⟨0, 0, z⟩) (finSetForce p.position p.factor ((List.range p.shape.geom.numFins).map G)).force).x =
      -((p.position.z - z) * (finSetForce p.position p.factor ((List.range p.shape.geom.numFins).map G)).force.y) := by
    simp only [cross, sub_x, sub_y, sub_z, h.onAxis.2]; ring
  have hy : (cross (p.position - ⟨0, 0, z⟩) (finSetForce p.position p.factor ((List.range p.shape.geom.numFins).map G)).force).y =
      (p.position.z - z) * (finSetForce p.position p.factor ((List.range p.shape.geom.numFins).map G)).force.x := by
    simp only [cross, sub_x, sub_y, sub_z, h.onAxis.1]; ring
  rw [add_x, add_y, hx, hy]
  have e : (p.position.z - z) * push (finSetForce p.position p.factor ((List.range p.shape.geom.numFins).map G)) f.v =
      (p.position.z - z) * (finSetForce p.position p.factor ((List.range p.shape.geom.numFins).map G)).force.x * f.v.x +
      (p.position.z - z) * (finSetForce p.position p.factor ((List.range p.shape.geom.numFins).map G)).force.y * f.v.y := by
    unfold push; ring
  have e2 : (p.factor * (((List.range p.shape.geom.numFins).map G).map fun f => (f.momentAbout p.position).y).sum) * f.v.x -
      (p.factor * (((List.range p.shape.geom.numFins).map G).map fun f => (f.momentAbout p.position).x).sum) * f.v.y =
      -cpx * (p.factor * f.q * ∑ i ∈ Finset.range p.shape.geom.numFins, S i * across (u i) f.v) +
      p.factor * (p.macY + p.shape.geom.bodyRadius) * cd * s.aref * f.q * ∑ i ∈ Finset.range p.shape.geom.numFins, D i * along (u i) f.v := by
    rw [List.map_map, List.map_map, list_sum_range, list_sum_range]
    simp only [Finset.mul_sum, Finset.sum_mul]
    rw [← Finset.sum_sub_distrib, ← Finset.sum_add_distrib]
    refine Finset.sum_congr rfl fun i _ => ?_
    simp only [Function.comp, (hmom i).1, (hmom i).2, across, along]
    ring
  rw [← hpush] at e2
  linear_combination e2 - e

theorem direction_opposite (g : FinGeom) (m : Nat) (hm : 0 < m) (hn : g.numFins = m + m) (i : Nat) :
    (g.direction (m + i)).x = -(g.direction i).x ∧ (g.direction (m + i)).y = -(g.direction i).y := by
  have e : (g.firstFinAngle + ((m + i : ℕ) : ℝ) * (360 / (g.numFins : ℝ))) * Real.pi / 180 =
      (g.firstFinAngle + (i : ℝ) * (360 / (g.numFins : ℝ))) * Real.pi / 180 + Real.pi := by
    have : (m : ℝ) ≠ 0 := by exact_mod_cast hm.ne'
    rw [hn]; push_cast
    field_simp
    ring
  simp only [FinGeom.direction]
  rw [e, Real.cos_add_pi, Real.sin_add_pi]
  exact ⟨rfl, rfl⟩

theorem across_le (s v : V3 ℝ) (h : s.x ^ 2 + s.y ^ 2 = 1) : |across s v| ≤ Real.sqrt (v.x ^ 2 + v.y ^ 2) := by
  apply Real.abs_le_sqrt
  unfold across
  nlinarith [sq_nonneg (s.x * v.x + s.y * v.y)]

/-- **C97.** With an even number of fins the drag of opposite fins balances, unless the air comes within about a ten-millionth of a radian of
straight across: the fin set's side force acts at its centre of pressure. -/
theorem FinSet.acts_at_cp (p : FinSet) (h : p.Regular) (s : Ship) (f : Flow) (cg : V3 ℝ) (t : ℝ)
    (hd : ∀ i < p.shape.geom.numFins, p.deflection i t = 0) (he : Even p.shape.geom.numFins) (hm : 0 ≤ f.mach) (ho : f.omega = 0)
    (hv : Real.sqrt (f.v.x ^ 2 + f.v.y ^ 2) ≤ (1 - 1e-14) * f.v.length) (F : FMS ℝ) (hF : p.force s f cg t = .ok F) :
    ∃ cpx, cpXPos p.cpCoeffs p.shape.geom.aspectRatio p.shape.mac p.macX f.mach = .ok cpx ∧ ActsAt F f.v (p.position.z - cpx) := by
  obtain ⟨cpx, cd, h1, -, h2, -⟩ := p.still_formula h s f cg t hd hm ho F hF
  refine ⟨cpx, h1, fun z => ?_⟩
  rw [h2 z]
  obtain ⟨m, hn⟩ := he
  have hm0 : 0 < m := by have := h.two; omega
  have hsum : ∑ i ∈ Finset.range p.shape.geom.numFins,
      dragToAxial (rawAOA (across (p.shape.geom.direction i) f.v) f.v.length) * along (p.shape.geom.direction i) f.v = 0 := by
    rw [hn, Finset.sum_range_add, ← Finset.sum_add_distrib]
    refine Finset.sum_eq_zero fun i _ => ?_
    obtain ⟨ex, ey⟩ := direction_opposite p.shape.geom m hm0 hn i
    have ha : across (p.shape.geom.direction (m + i)) f.v = -across (p.shape.geom.direction i) f.v := by
      unfold across; rw [ex, ey]; ring
    have hb : along (p.shape.geom.direction (m + i)) f.v = -along (p.shape.geom.direction i) f.v := by
      unfold along; rw [ex, ey]; ring
    rw [ha, hb, rawAOA_neg _ _ ((across_le _ _ (direction_ok _ i).2).trans hv), (dragToAxial_range _).2.2.1]
    ring
  rw [hsum]; ring

theorem FinSet.factor_pos (p : FinSet) (h : p.Regular) : 0 < p.factor := by
  obtain ⟨th, ro, le, tr, cf, hb⟩ := h.built
  have hs := h.span
  have hb0 := h.body
  have hB : 0 < p.shape.geom.bodyInterference := by unfold FinGeom.bodyInterference; positivity
  generalize p.shape.geom = g at *
  unfold FinSet.build at hb
  simp only [bind, Except.bind] at hb
  split at hb
  · cases hb
  rename_i n hn
  have hn0 : (0 : ℝ) < n := by
    unfold finNumberInterference at hn
    split at hn
    · obtain rfl := Except.ok.inj hn; norm_num
    · split at hn
      · cases hn
      · obtain rfl := Except.ok.inj hn; norm_num
  repeat' split at hb
  all_goals first
    | cases hb; done
    | (rw [← Except.ok.inj hb]
       exact mul_pos hB hn0)

/-- three or more fins: the air cannot move along all of them -/
theorem some_across (g : FinGeom) (hn : 3 ≤ g.numFins) (v : V3 ℝ) (hv : ¬ OnAxis v) : ∃ i < g.numFins, across (g.direction i) v ≠ 0 := by
  by_contra hcon
  push Not at hcon
  have h0 := hcon 0 (by omega)
  have h1 := hcon 1 (by omega)
  have hdet := (((directions_spec g).2 (by omega)).2.2.2 1 0).2
  have hpi := Real.pi_pos
  have hn' : (3 : ℝ) ≤ g.numFins := by exact_mod_cast hn
  have hsin : 0 < Real.sin ((((1 : ℕ) : ℝ) - ((0 : ℕ) : ℝ)) * (2 * Real.pi / g.numFins)) := by
    apply Real.sin_pos_of_pos_of_lt_pi
    · push_cast
      rw [sub_zero, one_mul]
      positivity
    · push_cast
      rw [sub_zero, one_mul, div_lt_iff₀ (by linarith)]
      nlinarith
  rw [← hdet] at hsin
  unfold across at h0 h1
  refine hv ⟨?_, ?_⟩
  · have : ((g.direction 0).x * (g.direction 1).y - (g.direction 0).y * (g.direction 1).x) * v.x = 0 := by
      linear_combination (g.direction 0).x * h1 - (g.direction 1).x * h0
    exact (mul_eq_zero.1 this).resolve_left hsin.ne'
  · have : ((g.direction 0).x * (g.direction 1).y - (g.direction 0).y * (g.direction 1).x) * v.y = 0 := by
      linear_combination (g.direction 0).y * h1 - (g.direction 1).y * h0
    exact (mul_eq_zero.1 this).resolve_left hsin.ne'

/-- **C97.** The side force of a fin set is along the air's lateral motion, never against it; with three or more fins it is not zero if there
is such motion. -/
theorem FinSet.push_sign (p : FinSet) (h : p.Regular) (s : Ship) (f : Flow) (cg : V3 ℝ) (t : ℝ)
    (hd : ∀ i < p.shape.geom.numFins, p.deflection i t = 0) (hm : 0 ≤ f.mach) (ho : f.omega = 0)
    (hs : f.mach ≤ 0.8 ∨ 1.4 ≤ f.mach ∨ ∀ sl ∈ p.slices, |(p.fin ⟨1, 0, 0⟩).outer - sl.radius| ≤ 3 * sl.len) (hr : 0 ≤ f.rho)
    (F : FMS ℝ) (hF : p.force s f cg t = .ok F) :
    0 ≤ push F f.v ∧ (0 < f.rho → 0.1 ≤ f.v.length → ¬ OnAxis f.v → 3 ≤ p.shape.geom.numFins → (∃ sl ∈ p.slices, 0 < sl.area) → 0 < push F f.v) := by
  obtain ⟨-, -, -, -, -, hp⟩ := p.still_formula h s f cg t hd hm ho F hF
  rw [hp]
  have hk := p.factor_pos h
  have hq : 0 ≤ f.q := by unfold Flow.q; positivity
  have hok : ∀ i, (p.fin (p.shape.geom.direction i)).Ok := fun i =>
    FinP.turned_ok _ (p.fin_ok h) _ (direction_ok _ i).1 (direction_ok _ i).2
  have hlen : ∀ i, f.v.length = Real.sqrt (across (p.shape.geom.direction i) f.v ^ 2 + (along (p.shape.geom.direction i) f.v ^ 2 + f.v.z ^ 2)) := by
    intro i
    unfold V3.length
    congr 1
    have e := (direction_ok p.shape.geom i).2
    unfold across along
    linear_combination -(f.v.x ^ 2 + f.v.y ^ 2) * e
  have hlaw : ∀ i, ∀ sl ∈ p.slices, _ := fun i sl hsl => (p.fin (p.shape.geom.direction i)).law_power (hok i) f.mach hs sl hsl
    (across (p.shape.geom.direction i) f.v) (along (p.shape.geom.direction i) f.v ^ 2 + f.v.z ^ 2) (by positivity)
  simp only [← hlen] at hlaw
  have hsum : ∀ i, 0 ≤ (p.slices.map fun sl => (p.fin (p.shape.geom.direction i)).law f.mach sl
      (rawAOA (across (p.shape.geom.direction i) f.v) f.v.length)).sum * across (p.shape.geom.direction i) f.v := by
    intro i
    rw [← List.sum_map_mul_right]
    exact List.sum_nonneg (by
      intro x hx
      obtain ⟨sl, h1, rfl⟩ := List.mem_map.1 hx
      exact (hlaw i sl h1).1)
  refine ⟨mul_nonneg (mul_nonneg hk.le hq) (Finset.sum_nonneg fun i _ => hsum i), ?_⟩
  rintro hr' hv hax hn ⟨sl, hsl, harea⟩
  have hq' : 0 < f.q := by
    have : 0 < f.v.length := by linarith
    unfold Flow.q; positivity
  obtain ⟨i, hi, hne⟩ := some_across p.shape.geom hn f.v hax
  refine mul_pos (mul_pos hk hq') (Finset.sum_pos' (fun i _ => hsum i) ⟨i, Finset.mem_range.2 hi, ?_⟩)
  rw [← List.sum_map_mul_right]
  have := sum_map_lt p.slices (fun _ => (0 : ℝ)) (fun sl => (p.fin (p.shape.geom.direction i)).law f.mach sl
      (rawAOA (across (p.shape.geom.direction i) f.v) f.v.length) * across (p.shape.geom.direction i) f.v)
    (fun x hx => (hlaw i x hx).1) sl hsl ((hlaw i sl hsl).2 hv hne harea)
  simpa using this

end Mapleaf.Rocket
