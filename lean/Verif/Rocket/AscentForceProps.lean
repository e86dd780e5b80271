import Verif.Rocket.AscentModel
import Verif.Rocket.PartHullProps
import Verif.Rocket.FinPowerProps
import Verif.Motion.StateVarProps

/-!
# C95, first part: in axial flow a symmetric rocket is pushed along its axis only
-/

namespace Mapleaf.Rocket
open Mapleaf.Motion V3 ENV

/-- a point of the rocket's axis, or a vector along it -/
def OnAxis (p : V3 ℝ) : Prop := p.x = 0 ∧ p.y = 0

/-- a force system that pushes neither sideways nor about a lateral axis through any point of the rocket's axis -/
def Axial (f : FMS ℝ) : Prop :=
  f.force.x = 0 ∧ f.force.y = 0 ∧ ∀ z, (f.momentAbout ⟨0, 0, z⟩).x = 0 ∧ (f.momentAbout ⟨0, 0, z⟩).y = 0

theorem onAxis_form {p : V3 ℝ} (h : OnAxis p) : p = ⟨0, 0, p.z⟩ := V3.ext' h.1 h.2 rfl

theorem axial_of (f : FMS ℝ) (hf : OnAxis f.force) (hm : OnAxis f.moment) (hl : OnAxis f.loc) : Axial f := by
  refine ⟨hf.1, hf.2, fun z => ?_⟩
  simp [FMS.momentAbout, cross, hf.1, hf.2, hm.1, hm.2, hl.1, hl.2]

theorem axial_add {a b : FMS ℝ} (ha : Axial a) (hb : Axial b) : Axial (a.add b) := by
  refine ⟨?_, ?_, fun z => ?_⟩
  · rw [(FMS.add_spec a b 0).1, add_x, ha.1, hb.1, add_zero]
  · rw [(FMS.add_spec a b 0).1, add_y, ha.2.1, hb.2.1, add_zero]
  · rw [(FMS.add_spec a b _).2, add_x, add_y, (ha.2.2 z).1, (ha.2.2 z).2, (hb.2.2 z).1, (hb.2.2 z).2, add_zero]
    exact ⟨rfl, rfl⟩

theorem axial_getAt {a : FMS ℝ} (ha : Axial a) (p : V3 ℝ) (hp : OnAxis p) :
    Axial (a.getAt p) ∧ OnAxis (a.getAt p).moment ∧ OnAxis (a.getAt p).loc ∧ OnAxis (a.getAt p).force := by
  have h : Axial (a.getAt p) :=
    ⟨ha.1, ha.2.1, fun z => by rw [(FMS.getAt_preserves a p _).2.2]; exact ha.2.2 z⟩
  have e : (a.getAt p).moment = a.momentAbout ⟨0, 0, p.z⟩ := by
    rw [← onAxis_form hp]; rfl
  exact ⟨h, ⟨by rw [e]; exact (ha.2.2 _).1, by rw [e]; exact (ha.2.2 _).2⟩, hp, ⟨ha.1, ha.2.1⟩⟩

/-! ## Angle of attack -/

theorem length_axis (z : ℝ) : (⟨0, 0, z⟩ : V3 ℝ).length = |z| := by
  have : (⟨0, 0, z⟩ : V3 ℝ).length = Real.sqrt (0 * 0 + 0 * 0 + z * z) := by unfold V3.length; congr 1
  rw [this, show (0 : ℝ) * 0 + 0 * 0 + z * z = z * z by ring, Real.sqrt_mul_self_eq_abs]

/-- flow along the axis, from the front or from behind, has no lateral component -/
theorem aoa_sin (z : ℝ) : ∃ a, Aero.totalAOAOf ⟨0, 0, z⟩ = .ok a ∧ Real.sin a = 0 := by
  rcases le_or_gt z 0 with hz | hz
  · exact ⟨0, aoa_axial z hz, Real.sin_zero⟩
  · refine ⟨Real.pi, ?_, Real.sin_pi⟩
    unfold Aero.totalAOAOf V3.angle
    rw [length_axis, length_axis, abs_of_pos hz, abs_neg, abs_one, mul_one, if_neg hz.ne', if_neg hz.ne']
    have : dot (⟨0, 0, z⟩ : V3 ℝ) ⟨0, 0, -1⟩ / z = -1 := by
      simp only [dot]
      field_simp
      ring
    simp only [this]
    rw [if_neg (by norm_num), Real.arccos_neg_one]

/-! ## The parts -/

theorem assembled_axial (f : Flow) (aref a cd cn : ℝ) (cp : V3 ℝ) (roll : ℝ) (hcn : cn = 0) (hcp : OnAxis cp) :
    Axial (assembled f aref a cd cn cp roll) := by
  subst hcn
  exact axial_of _ ⟨by simp [assembled], by simp [assembled]⟩ ⟨rfl, rfl⟩ hcp

theorem nose_cp (n : Nose) (w : ℝ) (cp : V3 ℝ) (h : n.build = .ok (w, cp)) : OnAxis cp := by
  unfold Nose.build at h
  simp only [bind, Except.bind] at h
  repeat' split at h
  all_goals first
    | cases h; done
    | (have := Except.ok.inj h
       obtain rfl := (Prod.mk.inj this).2
       exact ⟨rfl, rfl⟩)

theorem trans_cp (t : Trans) (w vol : ℝ) (cp : V3 ℝ) (hp : OnAxis t.position) (h : t.geometry = .ok (w, vol, cp)) : OnAxis cp := by
  unfold Trans.geometry at h
  split at h
  · have := Except.ok.inj h
    obtain rfl := (Prod.mk.inj (Prod.mk.inj this).2).2
    exact hp
  · dsimp only at h
    split at h
    · cases h
    · have := Except.ok.inj h
      obtain rfl := (Prod.mk.inj (Prod.mk.inj this).2).2
      exact hp

theorem nose_axial (n : Nose) (r : ℝ) (s : Ship) (f : Flow) (hv : OnAxis f.v) (F : FMS ℝ) (h : noseForce n r s f = .ok F) : Axial F := by
  obtain ⟨w, cp, a, fr, p, hb, ha, -, -, -, -, rfl⟩ := (noseForce_iff ..).1 h
  obtain ⟨a', h1, h2⟩ := aoa_sin f.v.z
  rw [onAxis_form hv, h1] at ha
  obtain rfl := Except.ok.inj ha
  exact assembled_axial _ _ _ _ _ _ _ (by rw [h2]; simp) (nose_cp n w cp hb)

theorem trans_axial (t : Trans) (r : ℝ) (s : Ship) (f : Flow) (hv : OnAxis f.v) (hp : OnAxis t.position) (F : FMS ℝ)
    (h : transForce t r s f = .ok F) : Axial F := by
  obtain ⟨w, vol, cp, a, fr, p, hb, ha, -, -, -, rfl⟩ := (transForce_iff ..).1 h
  obtain ⟨a', h1, h2⟩ := aoa_sin f.v.z
  rw [onAxis_form hv, h1] at ha
  obtain rfl := Except.ok.inj ha
  exact assembled_axial _ _ _ _ _ _ _ (by rw [h2]; simp) (trans_cp t w vol cp hp hb)

theorem boatTail_axial (t : Trans) (r : ℝ) (s : Ship) (f : Flow) (so : Option ℝ) (ti : ℝ) (hv : OnAxis f.v) (hp : OnAxis t.position)
    (F : FMS ℝ) (h : boatTailForce t r s f so ti = .ok F) : Axial F := by
  obtain ⟨w, vol, cp, a, fr, p, hb, ha, -, -, -, base, -, -, rfl⟩ := (boatTailForce_iff ..).1 h
  obtain ⟨a', h1, h2⟩ := aoa_sin f.v.z
  rw [onAxis_form hv, h1] at ha
  obtain rfl := Except.ok.inj ha
  exact assembled_axial _ _ _ _ _ _ _ (by rw [h2]; simp) (trans_cp t w vol cp hp hb)

theorem segment_axial (omega psi : V3 ℝ) (ho : OnAxis omega) (hp : OnAxis psi) : segmentMoment omega psi = 0 := by
  apply V3.ext' <;> simp [segmentMoment, cross, ho.1, ho.2, hp.1, hp.2]

theorem longitudinal_axial (position cor omega : V3 ℝ) (len d rho : ℝ) (n : Nat) (hp : OnAxis position) (hc : OnAxis cor)
    (ho : OnAxis omega) : longitudinalDamping position cor omega len d rho n = 0 := by
  unfold longitudinalDamping
  have : ∀ (l : List Nat), l.foldl (fun t i => t + segmentMoment omega (segmentArm position cor (len / n) i)) (0 : V3 ℝ) = 0 := by
    intro l
    induction l with
    | nil => rfl
    | cons i l ih =>
      rw [List.foldl_cons, segment_axial omega _ ho ⟨by simp [segmentArm, hp.1, hc.1], by simp [segmentArm, hp.2, hc.2]⟩, add_zero]
      exact ih
  dsimp only
  rw [this, smul_zero]

theorem tube_axial (position cg omega v : V3 ℝ) (rho len d aref cf : ℝ) (fin : Option ℝ) (hp : OnAxis position) (hc : OnAxis cg)
    (ho : OnAxis omega) (hv : OnAxis v) (F : FMS ℝ) (h : bodyTubeForce position cg omega v rho len d aref cf fin = .ok F) : Axial F := by
  obtain ⟨a, h1, h2⟩ := aoa_sin v.z
  rw [← onAxis_form hv] at h1
  unfold bodyTubeForce at h
  rw [h1] at h
  dsimp only at h
  split at h
  · cases h
  rw [h2, longitudinal_axial _ _ _ _ _ _ _ hp hc ho] at h
  split at h
  · cases h
  rename_i cd roll hroll
  have hr : OnAxis roll := by
    unfold cylinderFriction at hroll
    dsimp only at hroll
    repeat' split at hroll
    all_goals first
      | cases hroll; done
      | (have := Except.ok.inj hroll
         obtain rfl := (Prod.mk.inj this).2
         exact ⟨rfl, rfl⟩)
  unfold forceFromCdCN at h
  rw [h1] at h
  obtain rfl := Except.ok.inj h
  refine axial_of _ ?_ ?_ ?_
  · simp [FMS.make, OnAxis]
  · simpa [FMS.make, OnAxis] using hr
  · simpa [FMS.make, OnAxis] using hp

theorem coeff_axial (v : V3 ℝ) (rho cd cmz : ℝ) (cp : V3 ℝ) (aref lref : ℝ) (hv : OnAxis v) (hp : OnAxis cp) (F : FMS ℝ)
    (h : forceFromCoefficients v rho cd 0 0 0 cmz cp aref lref = .ok F) : Axial F := by
  unfold forceFromCoefficients at h
  dsimp only at h
  split at h
  · obtain rfl := Except.ok.inj h
    exact axial_of _ ⟨rfl, rfl⟩ ⟨rfl, rfl⟩ ⟨rfl, rfl⟩
  split at h
  · cases h
  split at h
  · cases h
  obtain rfl := Except.ok.inj h
  have hn : OnAxis v.normalize := by
    unfold V3.normalize
    split
    · exact ⟨by simp [hv.1], by simp [hv.2]⟩
    · exact ⟨rfl, rfl⟩
  refine axial_of _ ?_ ?_ hp
  · simp [FMS.make, OnAxis, hn.1, hn.2]
  · simp [FMS.make, OnAxis]

theorem damping_axial (cx cy cz omega v : V3 ℝ) (rho aref lref : ℝ) (hx : cx.z = 0) (hy : cy.z = 0) (ho : OnAxis omega) (hv : OnAxis v)
    (F : FMS ℝ) (h : aeroDamping cx cy cz omega v rho aref lref = .ok F) : Axial F := by
  unfold aeroDamping at h
  have e1 : dot cx omega = 0 := by simp [dot, ho.1, ho.2, hx]
  have e2 : dot cy omega = 0 := by simp [dot, ho.1, ho.2, hy]
  dsimp only at h
  rw [e1, e2, zero_mul] at h
  exact coeff_axial v rho 0 _ _ aref lref hv ⟨rfl, rfl⟩ F h

/-! ## Fin sets -/

/-- a usable fin set: on the axis, made of two or more trapezoidal fins, all turned the same way -/
structure FinSet.Regular (p : FinSet) : Prop where
  two : 2 ≤ p.shape.geom.numFins
  span : 0 < p.shape.geom.span
  root : 0 < p.shape.geom.rootChord
  tip : 0 ≤ p.shape.geom.tipChord
  body : 0 ≤ p.shape.geom.bodyRadius
  onAxis : OnAxis p.position
  together : ∀ t, ∀ i < p.shape.geom.numFins, p.deflection i t = p.deflection 0 t
  built : ∃ thickness roughness lead trail cfStar, FinSet.build p.shape.geom thickness roughness lead trail p.position cfStar p.cpCoeffs
    p.deflection = .ok p

theorem FinSet.parts_of_build {geom : FinGeom} {th ro : ℝ} {le : LeadEdge} {tr : TrailEdge} {pos : V3 ℝ} {cf : ℝ} {x : Fin 6 → ℝ}
    {d : Nat → ℝ → ℝ} {p : FinSet} (h : FinSet.build geom th ro le tr pos cf x d = .ok p) :
    geom.slices = .ok p.slices ∧ geom.macProperties = .ok (p.shape.mac, p.macY, p.macX) := by
  unfold FinSet.build at h
  simp only [bind, Except.bind] at h
  repeat' split at h
  all_goals first
    | cases h; done
    | (obtain rfl := Except.ok.inj h
       rename_i h1 h2 _ _ _ _
       constructor <;> first | assumption | skip)

theorem FinSet.fin_ok (p : FinSet) (h : p.Regular) : (p.fin ⟨1, 0, 0⟩).Ok := by
  obtain ⟨th, ro, le, tr, cf, hb⟩ := h.built
  obtain ⟨h1, h2⟩ := FinSet.parts_of_build hb
  have hs := h.span
  have hr := h.root
  have ht := h.tip
  obtain ⟨hz, hsl⟩ := slices_spec p.shape.geom h.span
  obtain ⟨hl, -, hi⟩ := hsl _ h1
  obtain ⟨hm0, hm⟩ := mac_spec p.shape.geom h.span hr.le ht (by linarith)
  have hpl : 0 < p.shape.geom.planformArea := by unfold FinGeom.planformArea; positivity
  have hn0 : p.shape.geom.nSlices ≠ 0 := by
    intro h0
    rw [hz.2 h0] at h1
    cases h1
  have hround : 0 < GNC.pyRound (p.shape.geom.span / 0.0001) := by
    have h3 : GNC.pyRound (p.shape.geom.span / 0.0001) ≠ 0 := by
      intro h0
      rw [hm0.2 h0] at h2
      cases h2
    have h4 : 0 ≤ GNC.pyRound (p.shape.geom.span / 0.0001) := by
      have hnn : 0 ≤ ⌊p.shape.geom.span / 0.0001⌋ := Int.floor_nonneg.2 (by positivity)
      unfold GNC.pyRound
      dsimp only
      split
      · exact hnn
      · split
        · linarith
        · split
          · exact hnn
          · linarith
    omega
  obtain ⟨n, -, -, -, -, -, -, hy, -⟩ := hm _ _ _ h2 hround
  refine ⟨rfl, by norm_num [FinSet.fin], ?_, ?_, ?_, hs, hpl, ?_, h.onAxis.1, h.onAxis.2⟩
  · intro h0
    have : p.slices = [] := h0
    rw [this] at hl
    exact hn0 hl.symm
  · intro s hmem
    obtain ⟨i, hi', rfl⟩ := List.getElem_of_mem (show s ∈ p.slices from hmem)
    obtain ⟨e1, e2, e3, -, e5, e6⟩ := hi i hi'
    have hb := h.body
    have hlen : 0 < p.slices[i].len := by
      rw [e3]
      set u := (p.slices[i].radius - p.shape.geom.bodyRadius) / p.shape.geom.span with hu
      have u1 : u < 1 := by rw [hu, div_lt_one hs]; linarith
      have u0 : 0 < u := by rw [hu]; apply div_pos _ hs; linarith
      have := mul_pos hr (sub_pos.2 u1)
      have := mul_nonneg ht u0.le
      nlinarith
    refine ⟨?_, by linarith, hlen⟩
    rw [e2]
    exact mul_nonneg hlen.le (div_nonneg hs.le (Nat.cast_nonneg _))
  · show Real.pi / 2 ≤ p.shape.geom.stallAngle
    unfold FinGeom.stallAngle FinGeom.aspectRatio
    have : (0 : ℝ) ≤ 1.1 / ((2 * p.shape.geom.span) ^ 2 / p.shape.geom.planformArea) := by positivity
    have := Real.pi_le_four
    nlinarith
  · show 0 ≤ p.macY + p.shape.geom.bodyRadius
    linarith [h.body]

theorem mapE_mem {X Y : Type} (f : X → Except PyErr Y) (l : List X) (m : List Y) (h : Body.mapE f l = .ok m) :
    ∀ y ∈ m, ∃ x ∈ l, f x = .ok y := by
  induction l generalizing m with
  | nil => cases h; simp
  | cons x l ih =>
    unfold Body.mapE at h
    cases hx : f x with
    | error e => rw [hx] at h; cases h
    | ok y =>
      rw [hx] at h
      cases hl : Body.mapE f l with
      | error e => rw [hl] at h; cases h
      | ok ys =>
        rw [hl] at h
        obtain rfl := Except.ok.inj h
        intro z hz
        rcases List.mem_cons.1 hz with rfl | hz
        · exact ⟨x, by simp, hx⟩
        · obtain ⟨x', h1, h2⟩ := ih ys hl z hz
          exact ⟨x', by simp [h1], h2⟩

theorem mapE_map_ok {X Y : Type} (f : X → Except PyErr Y) (l : List X) (m : List Y) (h : l.map f = m.map .ok) : Body.mapE f l = .ok m := by
  induction l generalizing m with
  | nil => cases m with
    | nil => rfl
    | cons => cases h
  | cons x l ih =>
    cases m with
    | nil => cases h
    | cons y m =>
      rw [List.map_cons, List.map_cons] at h
      obtain ⟨h1, h2⟩ := List.cons.inj h
      unfold Body.mapE
      rw [h1, ih m h2]

theorem FinSet.force_axial (p : FinSet) (h : p.Regular) (s : Ship) (f : Flow) (cg : V3 ℝ) (t : ℝ) (hm : 0 ≤ f.mach) (hv : OnAxis f.v)
    (ho : OnAxis f.omega) (hc : OnAxis cg) (F : FMS ℝ) (hF : p.force s f cg t = .ok F) : Axial F := by
  unfold FinSet.force at hF
  simp only [bind, Except.bind] at hF
  split at hF
  · cases hF
  rename_i cd _
  split at hF
  · cases hF
  rename_i cpx _
  split at hF
  · cases hF
  rename_i dirs hd
  split at hF
  · cases hF
  rename_i fins hfins
  have hvel : finAirVel f.v f.omega p.position cg = ⟨0, 0, f.v.z⟩ := by
    apply V3.ext' <;> simp [finAirVel, cross, hv.1, hv.2, ho.1, ho.2, h.onAxis.1, h.onAxis.2, hc.1, hc.2]
  obtain ⟨fins', e1, e2, e3, e4, e5⟩ := finSet_axial p.shape.geom h.two dirs hd (p.fin ⟨1, 0, 0⟩) (p.fin_ok h) f.mach (dynPressure f.v f.rho)
    s.aref f.v.z f.omega.z (p.deflection 0 t) cpx cd p.factor hm
  have hlen : dirs.length = p.shape.geom.numFins := by
    have := congrArg List.length e1
    simpa [e2] using this
  have : dirs.zipIdx.map (fun d : V3 ℝ × Nat => (p.fin d.1).force f.mach (dynPressure f.v f.rho) s.aref
      (finAirVel f.v f.omega p.position cg) f.omega.z (p.deflection d.2 t) cpx cd) = fins'.map .ok := by
    rw [← e1, hvel]
    apply List.ext_getElem
    · simp
    · intro i h1 h2
      simp only [List.getElem_map, List.getElem_zipIdx, Nat.zero_add]
      rw [h.together t i (by rw [← hlen]; simpa using h1)]
      rfl
  rw [mapE_map_ok _ _ _ this] at hfins
  obtain rfl := Except.ok.inj hfins
  obtain rfl := Except.ok.inj hF
  exact ⟨e3, e4, e5⟩

/-! ## Whole rockets -/

/-- a part that is symmetric about the axis -/
def Part.Symmetric : Part → Prop
  | .mass i => OnAxis i.cg
  | .nose i _ _ => OnAxis i.cg
  | .tube i pos _ _ _ => OnAxis i.cg ∧ OnAxis pos
  | .trans i t _ => OnAxis i.cg ∧ OnAxis t.position
  | .boatTail i t _ _ => OnAxis i.cg ∧ OnAxis t.position
  | .fins i p => OnAxis i.cg ∧ p.Regular
  | .motor _ => True
  | .force f => OnAxis f.force ∧ OnAxis f.loc ∧ OnAxis f.moment
  | .aero pos _ _ _ cl cmx cmy _ => OnAxis pos ∧ cl = 0 ∧ cmx = 0 ∧ cmy = 0
  | .damping cx cy _ _ _ => cx.z = 0 ∧ cy.z = 0
  | .jet _ _ _ => True
  | .table t => ∀ r ∈ t.2, r 1 = 0 ∧ r 2 = 0
  | .recovery i => OnAxis i.cg

/-- a rocket whose parts are symmetric about its axis -/
def Craft.Symmetric (c : Craft) : Prop :=
  ∀ s ∈ c.stages, (∀ g, s.over.cg = some g → OnAxis g) ∧ ∀ p ∈ s.parts, p.Symmetric

theorem Part.applied_axial (p : Part) (hp : p.Symmetric) (c : Scene) (hm : 0 ≤ c.flow.mach) (hv : OnAxis c.flow.v)
    (ho : OnAxis c.flow.omega) (hc : OnAxis c.cg) (F : FMS ℝ) (h : p.applied c = .ok F) : Axial F := by
  have z : ∀ m : Option (V3 ℝ), (∀ v, m = some v → OnAxis v) → Axial (FMS.make ⟨0, 0, 0⟩ none m) := by
    intro m hm
    refine axial_of _ ⟨rfl, rfl⟩ ?_ ⟨rfl, rfl⟩
    cases m with
    | none => exact ⟨rfl, rfl⟩
    | some v => exact hm v rfl
  cases p with
  | mass i => obtain rfl := Except.ok.inj h; exact z none (by simp)
  | nose i n r => exact nose_axial _ _ _ _ hv F h
  | tube i pos len d r => exact tube_axial _ _ _ _ _ _ _ _ _ _ hp.2 hc ho hv F h
  | trans i t r => exact trans_axial _ _ _ _ hv hp.2 F h
  | boatTail i t r so => exact boatTail_axial _ _ _ _ _ _ hv hp.2 F h
  | fins i p => exact p.force_axial hp.2 _ _ _ _ hm hv ho hc F h
  | motor m =>
    change m.force c.time = .ok F at h
    unfold Motor.force at h
    split at h
    · cases h
    obtain rfl := Except.ok.inj h
    exact axial_of _ ⟨rfl, rfl⟩ ⟨rfl, rfl⟩ ⟨rfl, rfl⟩
  | force f => obtain rfl := Except.ok.inj h; exact axial_of _ hp.1 hp.2.2 hp.2.1
  | aero pos aref lref cd cl cmx cmy cmz =>
    obtain ⟨h1, rfl, rfl, rfl⟩ := hp
    exact coeff_axial _ _ _ _ _ _ _ hv h1 F h
  | damping cx cy cz aref lref => exact damping_axial _ _ _ _ _ _ _ _ hp.1 hp.2 ho hv F h
  | jet ign off frac =>
    unfold Part.applied at h
    simp only [bind, Except.bind] at h
    split at h
    · rename_i hon
      split at h
      · cases h
      split at h
      · cases h
      obtain rfl := Except.ok.inj h
      unfold jetDamping
      rw [if_pos hon]
      exact z _ (by rintro v ⟨⟩; exact ⟨by simp [ho.1], by simp [ho.2]⟩)
    · obtain rfl := Except.ok.inj h; exact z _ (by simp)
  | table t => obtain rfl := Except.ok.inj h; exact z none (by simp)
  | recovery i => obtain rfl := Except.ok.inj h; exact z none (by simp)

theorem sumForces_axial {X : Type} (cg : V3 ℝ) (hc : OnAxis cg) (force : X → Except PyErr (FMS ℝ)) (xs : List X)
    (hx : ∀ x ∈ xs, ∀ F, force x = .ok F → Axial F) (F : FMS ℝ) (h : sumForces cg force xs = .ok F) : Axial F := by
  unfold sumForces at h
  split at h
  · cases h
  rename_i fs hfs
  obtain rfl := Except.ok.inj h
  have hall : ∀ f ∈ fs, Axial f := by
    intro f hf
    obtain ⟨x, h1, h2⟩ := mapE_mem force xs fs hfs f hf
    exact hx x h1 f h2
  clear hfs h
  have h0 : Axial (FMS.make ⟨0, 0, 0⟩ (some cg) none) := axial_of _ ⟨rfl, rfl⟩ ⟨rfl, rfl⟩ hc
  generalize FMS.make (⟨0, 0, 0⟩ : V3 ℝ) (some cg) none = acc at h0
  induction fs generalizing acc with
  | nil => exact h0
  | cons f fs ih => exact ih (fun g hg => hall g (by simp [hg])) _ (axial_add h0 (hall f (by simp)))

/-- **C95.** In flow along its axis, from the front or from behind, at any roll rate, Mach number and time, the parts of a symmetric rocket
together push along the axis and twist about it only. -/
theorem Craft.force_axial (c : Craft) (hs : c.Symmetric) (sc : Scene) (hm : 0 ≤ sc.flow.mach) (hv : OnAxis sc.flow.v)
    (ho : OnAxis sc.flow.omega) (hc : OnAxis sc.cg) (F : FMS ℝ) (h : c.force sc = .ok F) : Axial F :=
  sumForces_axial sc.cg hc _ _ (fun s hmem G hG => sumForces_axial sc.cg hc _ _
    (fun p hp H hH => p.applied_axial ((hs s hmem).2 p hp) sc hm hv ho hc H hH) G hG) F h

/-! ## The centre of gravity -/

theorem combine_onAxis (self : Inertia ℝ) (l : List (Inertia ℝ)) (h0 : OnAxis self.cg) (hl : ∀ i ∈ l, OnAxis i.cg) (r : Inertia ℝ)
    (h : self.combine l = .ok r) : OnAxis r.cg := by
  unfold Inertia.combine at h
  dsimp only at h
  split at h
  · have hw : ∀ i ∈ Inertia.withSelf self l, OnAxis i.cg := by
      intro i hi
      unfold Inertia.withSelf at hi
      split at hi
      · exact hl i hi
      · rcases List.mem_append.1 hi with hi | hi
        · exact hl i hi
        · rw [List.mem_singleton.1 hi]; exact h0
    obtain rfl := Except.ok.inj h
    generalize Inertia.withSelf self l = m at hw
    have key : ∀ (m : List (Inertia ℝ)) (a : ℝ × V3 ℝ), OnAxis a.2 → (∀ i ∈ m, OnAxis i.cg) → OnAxis (m.foldl Inertia.addMass a).2 := by
      intro m
      induction m with
      | nil => exact fun a ha _ => ha
      | cons i m ih =>
        intro a ha hm
        refine ih _ ?_ (fun j hj => hm j (by simp [hj]))
        have := hm i (by simp)
        exact ⟨by simp [Inertia.addMass, ha.1, this.1], by simp [Inertia.addMass, ha.2, this.2]⟩
    have hk := key m (0, 0) ⟨rfl, rfl⟩ hw
    show OnAxis (if (m.foldl Inertia.addMass (0, 0)).1 > 0 then _ else _)
    split
    · exact ⟨by simp [hk.1], by simp [hk.2]⟩
    · exact ⟨rfl, rfl⟩
  · cases h

theorem linInterp_zero {n : Nat} (X : List ℝ) (Y : List (Fin n → ℝ)) (x : ℝ) (j : Fin n) (hY : ∀ r ∈ Y, r j = 0) (v : Fin n → ℝ)
    (h : linInterp X Y x = .ok v) : v j = 0 := by
  have hget : ∀ (i : Int) (y : Fin n → ℝ), pyGet Y i = .ok y → y j = 0 := by
    intro i y hy
    unfold pyGet at hy
    dsimp only at hy
    repeat' split at hy
    all_goals first
      | cases hy; done
      | (obtain rfl := Except.ok.inj hy
         exact hY _ (by first | exact List.mem_of_getElem? (by assumption) | exact List.getElem_mem _))
  unfold linInterp at h
  dsimp only at h
  split at h
  · exact hget _ _ h
  split at h
  · exact hget _ _ h
  split at h
  · split at h
    · cases h
    · obtain rfl := Except.ok.inj h
      rename_i h1 h2 _
      simp only [Pi.add_apply, Pi.smul_apply, Pi.sub_apply, hget _ _ h1, hget _ _ h2, sub_self, smul_zero, add_zero]
  · cases h

theorem Part.variable_onAxis (p : Part) (hp : p.Symmetric) (t : ℝ) (i : Inertia ℝ) (h : p.variable t = .ok (some i)) : OnAxis i.cg := by
  cases p with
  | motor m =>
    change (m.inertia t).map some = .ok (some i) at h
    cases hm : m.inertia t with
    | error e => rw [hm] at h; cases h
    | ok j =>
      rw [hm] at h
      obtain rfl : j = i := by simpa [Except.map] using h
      unfold Motor.inertia at hm
      dsimp only at hm
      have hprop : ∀ ts ws ms a b c x r, propInertia (K := ℝ) ts ws ms a b c x = .ok r → OnAxis r.cg := by
        intro ts ws ms a b c x r hr
        unfold propInertia at hr
        dsimp only at hr
        repeat' split at hr
        all_goals first
          | cases hr; done
          | (obtain rfl := Except.ok.inj hr
             exact ⟨rfl, rfl⟩)
      split at hm
      · cases hm
      rename_i ox hox
      split at hm
      · cases hm
      rename_i fuel hfuel
      exact combine_onAxis ox [fuel] (hprop _ _ _ _ _ _ _ _ hox) (by simpa using hprop _ _ _ _ _ _ _ _ hfuel) _ hm
  | table tb =>
    change (tableInertia tb t).map some = .ok (some i) at h
    unfold tableInertia at h
    cases ht : linInterp tb.1 tb.2 t with
    | error e => rw [ht] at h; cases h
    | ok v =>
      rw [ht] at h
      have : Inertia.make ⟨v 4, v 5, v 6⟩ ⟨v 1, v 2, v 3⟩ (v 0) = i := by simpa [Except.map] using h
      rw [← this]
      exact ⟨linInterp_zero _ _ _ 1 (fun r hr => (hp r hr).1) v ht, linInterp_zero _ _ _ 2 (fun r hr => (hp r hr).2) v ht⟩
  | force f | aero | damping | jet =>
    obtain rfl : zeroInertia = i := by simpa [Part.variable] using h
    exact ⟨rfl, rfl⟩
  | mass | nose | tube | trans | boatTail | fins | recovery => simp [Part.variable] at h

theorem Part.fixed_onAxis (p : Part) (hp : p.Symmetric) (i : Inertia ℝ) (h : p.fixed = some i) : OnAxis i.cg := by
  cases p <;> simp only [Part.fixed, reduceCtorEq, Option.some.injEq] at h <;> subst h
  all_goals first | exact hp | exact hp.1

theorem fixedTotal_onAxis (l : List (Inertia ℝ)) (hl : ∀ i ∈ l, OnAxis i.cg) (r : Inertia ℝ) (h : fixedTotal l = .ok r) : OnAxis r.cg := by
  cases l with
  | nil => obtain rfl := Except.ok.inj h; exact ⟨rfl, rfl⟩
  | cons i l => exact combine_onAxis i _ (hl i (by simp)) hl r h

theorem StageP.inertia_onAxis (s : StageP) (ho : ∀ g, s.over.cg = some g → OnAxis g) (hp : ∀ p ∈ s.parts, p.Symmetric) (t : ℝ)
    (i : Inertia ℝ) (h : s.inertia t = .ok i) : OnAxis i.cg := by
  unfold StageP.inertia at h
  simp only [bind, Except.bind] at h
  split at h
  · cases h
  rename_i fx hfx
  split at h
  · cases h
  rename_i vs hvs
  split at h
  · cases h
  rename_i total htot
  have h1 : OnAxis fx.cg := fixedTotal_onAxis _ (by
    intro i hi
    obtain ⟨p, hp1, hp2⟩ := List.mem_filterMap.1 hi
    exact p.fixed_onAxis (hp p hp1) i hp2) fx hfx
  have h2 : OnAxis total.cg := combine_onAxis fx _ h1 (by
    intro i hi
    rcases List.mem_cons.1 hi with rfl | hi
    · exact h1
    · obtain ⟨o, ho1, ho2⟩ := List.mem_filterMap.1 hi
      obtain ⟨p, hp1, hp2⟩ := mapE_mem _ _ _ hvs o ho1
      rw [show o = some i from ho2] at hp2
      exact p.variable_onAxis (hp p hp1) t i hp2) total htot
  obtain rfl := Except.ok.inj h
  unfold applyOverrides
  cases hcg : s.over.cg with
  | none => cases s.over.moi <;> cases s.over.mass <;> exact h2
  | some g => cases s.over.moi <;> cases s.over.mass <;> exact ho g hcg

/-- **C95.** The centre of gravity of a symmetric rocket is on its axis at all times: while motors burn, tanks empty and tables are followed. -/
theorem Craft.cg_onAxis (c : Craft) (hs : c.Symmetric) (t : ℝ) (i : Inertia ℝ) (h : c.inertia t = .ok i) : OnAxis i.cg := by
  unfold Craft.inertia fixedTotal at h
  simp only [bind, Except.bind] at h
  split at h
  · cases h
  rename_i vs hvs
  refine combine_onAxis _ _ ⟨rfl, rfl⟩ ?_ i h
  intro j hj
  rcases List.mem_cons.1 hj with rfl | hj
  · exact ⟨rfl, rfl⟩
  · obtain ⟨s, hs1, hs2⟩ := mapE_mem _ _ _ hvs j hj
    exact s.inertia_onAxis (hs s hs1).1 (hs s hs1).2 t j hs2

end Mapleaf.Rocket
