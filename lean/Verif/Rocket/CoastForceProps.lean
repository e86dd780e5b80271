import Verif.Rocket.AscentProps
import Verif.Rocket.FinDragProps

/-!
# C107, first part: the air pushes a rocket that is not under power towards its tail, whatever its attitude
-/

namespace Mapleaf.Rocket
open Mapleaf.Motion V3 ENV

/-- a component of ordinary shape that does not push at time `t`: motors have burnt out, fins are straight, constant forces do not push
forwards. What tables of drag coefficients say depends on the side the air comes from. -/
def Part.Drifts (t : ℝ) : Part → Prop
  | .mass _ => True
  | .nose _ n r => 0 < n.baseDiameter ∧ 1 / 2 ≤ n.aspectRatio ∧ 0 ≤ r
  | .tube _ _ len d r => 0 < len ∧ 0 < d ∧ 0 ≤ r
  | .trans _ p r => 0 ≤ p.startDiameter ∧ 0 ≤ p.endDiameter ∧ 0 ≤ p.length ∧ 0 ≤ r
  | .boatTail _ p r _ => 0 ≤ p.startDiameter ∧ 0 ≤ p.endDiameter ∧ 0 ≤ p.length ∧ 0 ≤ r
  | .fins _ p => p.Regular ∧ p.shape.Sensible ∧ (∃ cf, p.shape.thicknessK cf = .ok p.thickK) ∧ ∀ i < p.shape.geom.numFins, p.deflection i t = 0
  | .motor m => ∃ hne : m.times ≠ [], m.ignition + m.times.getLast hne < t
  | .force f => f.force.z ≤ 0
  | .aero _ aref _ cd _ _ _ _ => 0 ≤ cd ∧ 0 ≤ aref
  | .damping _ _ _ _ _ => True
  | .jet _ _ _ => True
  | .table _ => True
  | .recovery _ => True

/-- a component whose drag comes from a table and is not zero -/
def Part.Tabulated : Part → Prop
  | .aero _ _ _ cd _ _ _ _ => cd ≠ 0
  | _ => False

theorem FinSet.force_brakes (p : FinSet) (h : p.Regular) (hs : p.shape.Sensible) (cf : ℝ) (hk : p.shape.thicknessK cf = .ok p.thickK) (s : Ship) (f : Flow)
    (cg : V3 ℝ) (t : ℝ) (hd : ∀ i < p.shape.geom.numFins, p.deflection i t = 0) (hm : 0 ≤ f.mach) (hA : 0 < s.aref) (hr : 0 ≤ f.rho) (F : FMS ℝ)
    (hF : p.force s f cg t = .ok F) : F.force.z ≤ 0 := by
  unfold FinSet.force at hF
  simp only [bind, Except.bind] at hF
  split at hF
  · cases hF
  rename_i cd hcd
  split at hF
  · cases hF
  rename_i cpx _
  split at hF
  · cases hF
  rename_i dirs hdir
  split at hF
  · cases hF
  rename_i fins hfins
  obtain rfl := Except.ok.inj hF
  have hcd0 := p.shape.dragCd_nonneg hs cf p.thickK s f hk hA hm cd hcd
  have h0 : p.shape.geom.numFins ≠ 0 := by have := h.two; omega
  obtain ⟨hl, hunit, -⟩ := (directions_spec p.shape.geom).2 h0
  rw [hdir] at hl
  have hl := Except.ok.inj hl
  rw [(finSet_sum p.position p.factor fins).2.1]
  show (fins.map fun f => f.force.z).sum ≤ 0
  have hq : 0 ≤ dynPressure f.v f.rho := by
    have := V3.length_nonneg f.v
    unfold dynPressure
    positivity
  have key : ∀ g ∈ fins, g.force.z ≤ 0 := by
    intro g hg
    obtain ⟨⟨d, i⟩, hd1, hd2⟩ := mapE_mem _ _ _ hfins g hg
    have hmem : d ∈ dirs ∧ i < p.shape.geom.numFins := by
      have h1 := List.mem_zipIdx hd1
      have hlen : dirs.length = p.shape.geom.numFins := by rw [hl]; simp
      refine ⟨?_, by omega⟩
      rw [h1.2.2]; exact List.getElem_mem _
    have hu : d.z = 0 ∧ d.x ^ 2 + d.y ^ 2 = 1 := by
      have := hmem.1
      rw [hl] at this
      obtain ⟨j, -, rfl⟩ := List.mem_map.1 this
      exact hunit j
    dsimp only at hd2
    rw [hd i hmem.2] at hd2
    have hok : (p.fin d).Ok := FinP.turned_ok (p.fin ⟨1, 0, 0⟩) (p.fin_ok h) d hu.1 hu.2
    obtain ⟨a, e, ha, -, -⟩ := FinP.force_undeflected (p.fin d) hok _ _ _ _ _ _ _ hm g hd2
    rw [e, add_z, smul_z]
    have hn : (p.fin d).normal0.z = 0 := by simp [FinP.normal0]
    rw [hn, zero_mul, zero_add]
    have := hA
    have : 0 ≤ a * cd * s.aref * dynPressure f.v f.rho := by positivity
    exact neg_nonpos.2 this
  clear hfins hF
  induction fins with
  | nil => simp
  | cons g fins ih =>
    rw [List.map_cons, List.sum_cons]
    have := key g (by simp)
    have := ih (fun g' hg' => key g' (by simp [hg']))
    linarith

theorem tube_brakes (position cg omega v : V3 ℝ) (rho len d aref cf : ℝ) (fin : Option ℝ) (hl : 0 < len) (hd : 0 < d) (hA : 0 < aref)
    (hr : 0 ≤ rho) (hcf : 0 ≤ cf) (hfin : ∀ fr, fin = some fr → 0 < fr) (F : FMS ℝ)
    (h : bodyTubeForce position cg omega v rho len d aref cf fin = .ok F) :
    ∃ a fr, Aero.totalAOAOf v = .ok a ∧ fin = some fr ∧
      F.force.z = -(dragToAxial a * (cf * (1 + 0.5 / fr) * (Real.pi * d * len / aref)) * aref * (v.length ^ 2 * rho / 2)) := by
  obtain ⟨a, ha⟩ := aoa_ok v
  unfold bodyTubeForce at h
  rw [ha] at h
  dsimp only at h
  rw [if_neg hA.ne'] at h
  split at h
  · cases h
  rename_i cd m hcm
  obtain ⟨fr, e1, e2, -⟩ := (roll_damping cf len (Real.pi * d * len) aref fin omega v.length rho).2 cd m hcm
  obtain ⟨a', f', h1, h2, h3, -⟩ := cdcn_spec v rho cd (1.1 * Real.sin a ^ 2 * (d * len / aref))
        (position - ⟨0, 0, len / 2⟩) aref (some (longitudinalDamping position cg omega len d rho 25 + m))
  obtain rfl := Except.ok.inj (h.symm.trans h2)
  obtain rfl := Except.ok.inj (ha.symm.trans h1)
  exact ⟨a, fr, ha, e1, by rw [h3, e2]⟩

/-- drag from a table pushes along the flow -/
theorem coeff_drag (v : V3 ℝ) (rho cd cl cmx cmy cmz : ℝ) (cp : V3 ℝ) (aref lref : ℝ) (hl : cl = 0) (hr : 0 ≤ rho) (hcd : 0 ≤ cd) (hA : 0 ≤ aref)
    (hz : cd ≠ 0 → v.z ≤ 0) (F : FMS ℝ) (h : forceFromCoefficients v rho cd cl cmx cmy cmz cp aref lref = .ok F) : F.force.z ≤ 0 := by
  subst hl
  unfold forceFromCoefficients at h
  dsimp only at h
  split at h
  · obtain rfl := Except.ok.inj h; exact le_rfl
  split at h
  · cases h
  split at h
  · cases h
  obtain rfl := Except.ok.inj h
  by_cases h0 : cd = 0
  · subst h0; simp [FMS.make]
  · have hz := hz h0
    have hn : v.normalize.z ≤ 0 := by
      unfold V3.normalize
      split
      · have := V3.length_nonneg v
        exact div_nonpos_of_nonpos_of_nonneg hz this
      · exact le_rfl
    have hq : 0 ≤ dynPressure v rho := by
      have := V3.length_nonneg v
      unfold dynPressure
      positivity
    simp only [FMS.make, smul_z, add_z, zero_mul, add_zero]
    have : 0 ≤ dynPressure v rho * aref * cd := by positivity
    have := mul_nonpos_of_nonneg_of_nonpos this hn
    nlinarith

/-- **C107.** In every flow, from any side, a component that does not push forwards is pushed towards the tail. -/
theorem Part.brakes (p : Part) (hp : p.Symmetric) (c : Scene) (hd : p.Drifts c.time) (hm : 0 ≤ c.flow.mach) (hr : 0 ≤ c.flow.rho) (hA : 0 < c.ship.aref)
    (hfin : ∀ fr, c.ship.fineness = some fr → 0 < fr) (hz : p.Tabulated → c.flow.v.z ≤ 0) (F : FMS ℝ) (h : p.applied c = .ok F) :
    F.force.z ≤ 0 := by
  cases p with
  | mass i => obtain rfl := Except.ok.inj h; exact le_rfl
  | nose i n r => exact (nose_brakes n r c.ship c.flow F ⟨hA, hfin, hr, hm, hd.2.2⟩ hd.1 hd.2.1 h).1
  | tube i pos len d r =>
    obtain ⟨hl, hdd, hro⟩ := hd
    have hcf := friction_nonneg (c.flow.unitRe * len) len c.flow.mach r c.ship.turbulent hl hro hm
    obtain ⟨a, fr, -, e1, e2⟩ := tube_brakes _ _ _ _ _ _ _ _ _ _ hl hdd hA hr hcf hfin F h
    rw [e2]
    have h1 := (dragToAxial_range a).1
    have h2 := hfin fr e1
    have h3 := Real.pi_pos
    exact neg_nonpos.2 (by positivity)
  | trans i t r => exact (below_brakes t r c.ship c.flow F ⟨hA, hfin, hr, hm, hd.2.2.2⟩ hd.1 hd.2.1 hd.2.2.1 (.inl h)).1
  | boatTail i t r so => exact (below_brakes t r c.ship c.flow F ⟨hA, hfin, hr, hm, hd.2.2.2⟩ hd.1 hd.2.1 hd.2.2.1 (.inr ⟨so, c.time, h⟩)).1
  | fins i p =>
    obtain ⟨h1, h2, ⟨cf, h3⟩, h4⟩ := hd
    exact p.force_brakes h1 h2 cf h3 c.ship c.flow c.cg c.time h4 hm hA hr F h
  | motor m =>
    obtain ⟨hne, hb⟩ := hd
    change m.force c.time = .ok F at h
    have ht : m.thrustAt c.time = .ok 0 := by
      unfold Motor.thrustAt
      rw [pyGet_neg_one _ hne]
      dsimp only
      rw [if_pos (.inr (lt_of_lt_of_le (by linarith) (le_max_right _ _)))]
    unfold Motor.force at h
    rw [ht] at h
    obtain rfl := Except.ok.inj h
    exact le_rfl
  | force f => obtain rfl := Except.ok.inj h; exact hd
  | aero pos aref lref cd cl cmx cmy cmz =>
    obtain ⟨-, rfl, -, -⟩ := hp
    exact coeff_drag _ _ _ _ _ _ _ _ _ _ rfl hr hd.1 hd.2 hz F h
  | damping cx cy cz aref lref =>
    change aeroDamping _ _ _ _ _ _ _ _ = .ok F at h
    unfold aeroDamping at h
    dsimp only at h
    unfold forceFromCoefficients at h
    dsimp only at h
    split at h
    · obtain rfl := Except.ok.inj h; exact le_rfl
    split at h
    · cases h
    split at h
    · cases h
    obtain rfl := Except.ok.inj h
    simp [FMS.make]
  | jet ign off frac =>
    unfold Part.applied at h
    simp only [bind, Except.bind] at h
    split at h
    · rename_i hon
      split at h
      · cases h
      split at h
      · cases h
      obtain rfl := Except.ok.inj h
      unfold jetDamping
      rw [if_pos hon]
      simp [FMS.make]
    · obtain rfl := Except.ok.inj h; exact le_rfl
  | table t => obtain rfl := Except.ok.inj h; exact le_rfl
  | recovery i => obtain rfl := Except.ok.inj h; exact le_rfl

theorem foldl_fms_z (fs : List (FMS ℝ)) (acc : FMS ℝ) : (fs.foldl FMS.add acc).force.z = acc.force.z + (fs.map fun f => f.force.z).sum := by
  induction fs generalizing acc with
  | nil => simp
  | cons f fs ih =>
    rw [List.foldl_cons, ih, (FMS.add_spec acc f 0).1, add_z, List.map_cons, List.sum_cons]
    ring

theorem sumForces_brakes {X : Type} (cg : V3 ℝ) (force : X → Except PyErr (FMS ℝ)) (xs : List X)
    (hx : ∀ x ∈ xs, ∀ F, force x = .ok F → F.force.z ≤ 0) (F : FMS ℝ) (h : sumForces cg force xs = .ok F) :
    F.force.z ≤ 0 ∧ ∀ x ∈ xs, ∃ G, force x = .ok G ∧ F.force.z ≤ G.force.z := by
  unfold sumForces at h
  split at h
  · cases h
  rename_i fs hfs
  obtain rfl := Except.ok.inj h
  have hz : ∀ fs : List (FMS ℝ), (fs.foldl FMS.add (FMS.make ⟨0, 0, 0⟩ (some cg) none)).force.z = (fs.map fun f => f.force.z).sum := by
    intro fs; rw [foldl_fms_z]; simp [FMS.make]
  rw [hz]
  clear h
  induction xs generalizing fs with
  | nil => cases hfs; simp
  | cons x l ih =>
    unfold Body.mapE at hfs
    cases hx' : force x with
    | error e => rw [hx'] at hfs; cases hfs
    | ok y =>
      rw [hx'] at hfs
      cases hl : Body.mapE force l with
      | error e => rw [hl] at hfs; cases hfs
      | ok ys =>
        rw [hl] at hfs
        obtain rfl := Except.ok.inj hfs
        obtain ⟨i1, i2⟩ := ih (fun x' h' => hx x' (by simp [h'])) ys hl
        have hy := hx x (by simp) y hx'
        rw [List.map_cons, List.sum_cons]
        refine ⟨by linarith, ?_⟩
        intro x' h'
        rcases List.mem_cons.1 h' with rfl | h'
        · exact ⟨y, hx', by linarith⟩
        · obtain ⟨G, g1, g2⟩ := i2 x' h'
          exact ⟨G, g1, by linarith⟩

/-- a rocket of ordinary shape, not under power at time `t` -/
def Craft.Drifts (c : Craft) (t : ℝ) : Prop :=
  0 < c.ship.aref ∧ (∀ fr, c.ship.fineness = some fr → 0 < fr) ∧ ∀ s ∈ c.stages, ∀ p ∈ s.parts, p.Symmetric ∧ p.Drifts t

/-- some of the rocket's drag comes from a table -/
def Craft.Tabulated (c : Craft) : Prop := ∃ s ∈ c.stages, ∃ p ∈ s.parts, p.Tabulated

/-- **C107.** In every flow, from any side, at any speed and any roll rate, the air pushes a rocket that is not under power towards its
tail (if it has components with tabulated drag: when it does not move tail first), and no less than it pushes any of its components. -/
theorem Craft.brakes (c : Craft) (sc : Scene) (hs : sc.ship = c.ship) (hd : c.Drifts sc.time) (hm : 0 ≤ sc.flow.mach) (hr : 0 ≤ sc.flow.rho)
    (hz : c.Tabulated → sc.flow.v.z ≤ 0) (F : FMS ℝ) (h : c.force sc = .ok F) :
    F.force.z ≤ 0 ∧ ∀ s ∈ c.stages, ∀ p ∈ s.parts, ∃ G, p.applied sc = .ok G ∧ F.force.z ≤ G.force.z ∧ G.force.z ≤ 0 := by
  obtain ⟨hA, hfin, hp⟩ := hd
  have inner : ∀ s ∈ c.stages, ∀ p ∈ s.parts, ∀ G, p.applied sc = .ok G → G.force.z ≤ 0 := fun s hs' p hp' G hG =>
    p.brakes (hp s hs' p hp').1 sc (hp s hs' p hp').2 hm hr (by rw [hs]; exact hA) (by rw [hs]; exact hfin) (fun ht => hz ⟨s, hs', p, hp', ht⟩) G hG
  obtain ⟨o1, o2⟩ := sumForces_brakes sc.cg _ c.stages (fun s hs' G hG => (sumForces_brakes sc.cg _ s.parts (inner s hs') G hG).1) F h
  refine ⟨o1, fun s hs' p hp' => ?_⟩
  obtain ⟨G, g1, g2⟩ := o2 s hs'
  obtain ⟨H, h1, h2⟩ := (sumForces_brakes sc.cg _ s.parts (inner s hs') G g1).2 p hp'
  exact ⟨H, h1, by linarith, inner s hs' p hp' H h1⟩

end Mapleaf.Rocket
