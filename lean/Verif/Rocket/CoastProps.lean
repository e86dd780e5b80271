import Verif.Rocket.CoastForceProps
import Mathlib.Analysis.Calculus.Deriv.MeanValue
import Mathlib.Analysis.Calculus.Deriv.Inv

/-!
# C107: rockets that coast upwards stay below the height they would reach in a vacuum
-/

namespace Mapleaf.Rocket
open Mapleaf.Motion V3 ENV Set

/-- a flat earth without lateral wind, no launch rail, air density not negative -/
structure Quiet (E : Env) : Prop where
  calm : Calm E
  flat : E.earth = flatEarth
  free : E.rail = none
  air : ∀ pos t a, E.conditions false pos (some t) = .ok a → 0 ≤ a.density

/-- from time `t₀` the rocket is not under power, and its mass does not change; its drag does not come from tables -/
structure Craft.Coasts (c : Craft) (t₀ : ℝ) : Prop where
  symmetric : c.Symmetric
  drifts : ∀ t, t₀ ≤ t → c.Drifts t
  inertia : ∃ I : Inertia ℝ, 0 < I.mass ∧ ∀ t, t₀ ≤ t → c.inertia t = .ok I
  hull : ¬ c.Tabulated

/-- what the derivative of an upright rocket that is not under power is -/
theorem Craft.rhs_drifting (c : Craft) (E : Env) (hE : Calm E) (hflat : E.earth = flatEarth) (hfree : E.rail = none) {x y : ℝ} (t : ℝ)
    (s : RBState) (hs : Upright x y s) (hc : c.Symmetric) (hd : c.Drifts t) (I : Inertia ℝ) (hI : 0 < I.mass) (h1 : c.inertia t = .ok I)
    (h2 : c.inertia (t + 1e-8) = .ok I) (hair : ∀ a, E.conditions false s.pos (some t) = .ok a → 0 ≤ a.density)
    (hz : c.Tabulated → ∀ a, E.conditions false s.pos (some t) = .ok a → a.wind.z ≤ s.vel.z) (d : RBDeriv) (h : c.rhs E t s = .ok d) :
    Straight d ∧ d.vel.z = s.vel.z ∧ s.pos.z + 6371000 ≠ 0 ∧ d.acc.z ≤ -(398600.5e9 / (s.pos.z + 6371000) ^ 2) ∧
      ∃ a f, E.conditions false s.pos (some t) = .ok a ∧ flowOf s a = .ok f ∧ OnAxis f.v ∧ f.v.z = a.wind.z - s.vel.z ∧
        ∀ st ∈ c.stages, ∀ p ∈ st.parts, ∃ G, p.applied ⟨c.ship, f, t, I.cg, fun t => (c.inertia t).map (·.moi.x)⟩ = .ok G ∧
          d.acc.z ≤ G.force.z / I.mass - 398600.5e9 / (s.pos.z + 6371000) ^ 2 := by
  have hstr := c.rhs_straight hc E hE (x := x) (y := y) (fun r hr => by rw [hfree] at hr; cases hr) t s d hs h
  refine ⟨hstr, ?_⟩
  unfold Craft.rhs at h
  simp only [bind, Except.bind] at h
  split at h
  · cases h
  rename_i F hF
  rw [h1, h2] at h
  dsimp only at h
  have hax := c.applied_axial hc E hE (x := x) (y := y) (fun r hr => by rw [hfree] at hr; cases hr) t s hs F hF
  unfold rigidBodyDerivative at h
  split at h
  · cases h
  rename_i cv o ho
  split at h
  · cases h
  rename_i fG o' ho'
  split at h
  · cases h
  split at h
  · cases h
  rename_i wG o'' ho''
  split at h
  · cases h
  obtain rfl := Except.ok.inj h
  have hcv : OnAxis ((1 / 1e-8 : ℝ) • (I.cg - I.cg)) := by rw [sub_self]; exact ⟨by simp, by simp⟩
  obtain ⟨rfl, hy⟩ := yaw_rotate ⟨hs.q1, hs.q2⟩ hcv ho
  obtain ⟨rfl, hy'⟩ := yaw_rotate hy hax.1 ho'
  unfold Craft.appliedForce at hF
  simp only [bind, Except.bind] at hF
  split at hF
  · cases hF
  rename_i air hair'
  rw [h1] at hF
  dsimp only at hF
  split at hF
  · cases hF
  rename_i flow hflow
  split at hF
  · cases hF
  split at hF
  · cases hF
  rename_i parts hparts
  split at hF
  · cases hF
  rename_i g hg
  have hw := calm_wind hE _ _ _ hair'
  obtain ⟨f1, f2, f3⟩ := flow_axial hs hw hflow
  unfold envForce at hF
  rw [hfree] at hF
  obtain rfl := Except.ok.inj hF
  have hv : flow.v.z = air.wind.z - s.vel.z ∧ flow.rho = air.density := by
    unfold flowOf at hflow
    simp only [bind, Except.bind] at hflow
    split at hflow
    · cases hflow
    split at hflow
    · cases hflow
    rename_i v hv
    split at hflow
    · cases hflow
    obtain rfl := Except.ok.inj hflow
    refine ⟨?_, rfl⟩
    unfold Aero.airVel at hv
    cases hr : s.ori.conj.rotate (s.vel - (condOf air).wind) with
    | error e => rw [hr] at hv; cases hv
    | ok p =>
      rw [hr] at hv
      obtain rfl : (-1 : ℝ) • p.1 = v := Except.ok.inj hv
      obtain ⟨hp, -⟩ := yaw_rotate (v := s.vel - (condOf air).wind) (w := p.1) (r := p.2) (yaw_conj ⟨hs.q1, hs.q2⟩) (onAxis_sub hs.vel hw) hr
      show ((-1 : ℝ) • p.1).z = _
      rw [hp]
      simp only [smul_z, sub_z, condOf]
      ring
  have hgz : g.force.z = -(I.mass * 398600.5e9 / (s.pos.z + 6371000) ^ 2) ∧ s.pos.z + 6371000 ≠ 0 := by
    unfold Env.gravityForce at hg
    split at hg
    · cases hg
    rename_i gv hgv
    split at hg
    · cases hg
    rename_i gv' q' hrot
    obtain rfl := Except.ok.inj hg
    have hax := calm_gravity hE _ _ _ hgv
    obtain ⟨rfl, -⟩ := yaw_rotate (yaw_conj ⟨hs.q1, hs.q2⟩) hax hrot
    rw [hflat] at hgv
    change flatGravity I.mass s.pos = .ok _ at hgv
    unfold flatGravity at hgv
    split at hgv
    · cases hgv
    rename_i hne
    obtain rfl := Except.ok.inj hgv
    refine ⟨by simp, fun h0 => hne (by rw [h0]; norm_num)⟩
  obtain ⟨b1, b2⟩ := c.brakes _ rfl hd f1 (by show 0 ≤ flow.rho; rw [hv.2]; exact hair _ hair')
    (fun ht => by show flow.v.z ≤ 0; rw [hv.1]; linarith [hz ht _ hair']) parts hparts
  have hacc : ((1 / I.mass) • ((parts.getAt I.cg).add g).force).z = parts.force.z / I.mass - 398600.5e9 / (s.pos.z + 6371000) ^ 2 := by
    have : ((parts.getAt I.cg).add g).force = parts.force + g.force := (FMS.add_spec (parts.getAt I.cg) g 0).1
    rw [this, smul_z, add_z, hgz.1]
    have := hI.ne'
    have := hgz.2
    field_simp
    ring
  refine ⟨by simp, hgz.2, ?_, air, flow, hair', hflow, f2, hv.1, ?_⟩
  · dsimp only
    rw [hacc]
    have := div_nonpos_of_nonpos_of_nonneg b1 hI.le
    linarith
  · intro st hst p hp
    obtain ⟨G, g1, g2, -⟩ := b2 st hst p hp
    refine ⟨G, g1, ?_⟩
    dsimp only
    rw [hacc]
    have := div_le_div_of_nonneg_right g2 hI.le
    linarith

/-- **C107.** An upright rocket that coasts is slowed by at least gravity, and its altitude changes with its vertical speed. -/
theorem Craft.rhs_coast (c : Craft) (E : Env) (hE : Quiet E) {x y t₀ : ℝ} (hc : c.Coasts t₀) (t : ℝ) (ht : t₀ ≤ t) (s : RBState)
    (hs : Upright x y s) (d : RBDeriv) (h : c.rhs E t s = .ok d) :
    Straight d ∧ d.vel.z = s.vel.z ∧ s.pos.z + 6371000 ≠ 0 ∧ d.acc.z ≤ -(398600.5e9 / (s.pos.z + 6371000) ^ 2) := by
  obtain ⟨I, hI, hi⟩ := hc.inertia
  obtain ⟨h1, h2, h3, h4, -⟩ := c.rhs_drifting E hE.calm hE.flat hE.free t s hs hc.symmetric (hc.drifts t ht) I hI (hi t ht)
    (hi _ (by linarith [show (0 : ℝ) ≤ 1e-8 by norm_num])) (hE.air s.pos t) (fun h => absurd h hc.hull) d h
  exact ⟨h1, h2, h3, h4⟩

/-! ## The true motion -/

/-- **C107.** A rocket that follows its equations of motion and starts upright and rising, without power: its vertical speed never grows,
the sum of its kinetic energy and its energy in the earth's field (per mass) never grows while it rises, and it never comes above a height
that a body thrown upwards at the same speed does not reach in a vacuum, also after it has turned round. -/
theorem coast_apogee (c : Craft) (E : Env) (hE : Quiet E) {x y t₀ T : ℝ} (hc : c.Coasts t₀) (s : ℝ → RBState)
    (hs : ∀ t ∈ Icc t₀ T, Upright x y (s t))
    (hode : ∀ t ∈ Icc t₀ T, ∃ d, c.rhs E t (s t) = .ok d ∧ HasDerivWithinAt (fun τ => (s τ).pos.z) d.vel.z (Icc t₀ T) t ∧
      HasDerivWithinAt (fun τ => (s τ).vel.z) d.acc.z (Icc t₀ T) t)
    (hz : -6371000 < (s t₀).pos.z) (hv : 0 ≤ (s t₀).vel.z) :
    AntitoneOn (fun t => (s t).vel.z) (Icc t₀ T) ∧
    (∀ t ∈ Icc t₀ T, 0 ≤ (s t).vel.z → (s t₀).pos.z ≤ (s t).pos.z ∧
      (s t).vel.z ^ 2 / 2 - 398600.5e9 / ((s t).pos.z + 6371000) ≤ (s t₀).vel.z ^ 2 / 2 - 398600.5e9 / ((s t₀).pos.z + 6371000)) ∧
    ∀ t ∈ Icc t₀ T, ∀ H : ℝ, (s t₀).pos.z ≤ H →
      (s t₀).vel.z ^ 2 / 2 - 398600.5e9 / ((s t₀).pos.z + 6371000) ≤ -(398600.5e9 / (H + 6371000)) → (s t).pos.z ≤ H := by
  have hder : ∀ t ∈ Icc t₀ T, ∃ a, HasDerivWithinAt (fun τ => (s τ).pos.z) (s t).vel.z (Icc t₀ T) t ∧
      HasDerivWithinAt (fun τ => (s τ).vel.z) a (Icc t₀ T) t ∧ a ≤ -(398600.5e9 / ((s t).pos.z + 6371000) ^ 2) := by
    intro t ht
    obtain ⟨d, h1, h2, h3⟩ := hode t ht
    obtain ⟨-, e1, -, e2⟩ := c.rhs_coast E hE hc t ht.1 (s t) (hs t ht) d h1
    rw [e1] at h2
    exact ⟨d.acc.z, h2, h3, e2⟩
  choose! a h1 h2 h3 using hder
  have hcz : ContinuousOn (fun τ => (s τ).pos.z) (Icc t₀ T) := fun t ht => (h1 t ht).continuousWithinAt
  have hcv : ContinuousOn (fun τ => (s τ).vel.z) (Icc t₀ T) := fun t ht => (h2 t ht).continuousWithinAt
  have ha : ∀ t ∈ Icc t₀ T, a t ≤ 0 := by
    intro t ht
    have := h3 t ht
    have : (0 : ℝ) ≤ 398600.5e9 / ((s t).pos.z + 6371000) ^ 2 := by positivity
    linarith
  have hsub : ∀ b ∈ Icc t₀ T, Icc t₀ b ⊆ Icc t₀ T := fun b hb => Icc_subset_Icc_right hb.2
  have hanti : AntitoneOn (fun t => (s t).vel.z) (Icc t₀ T) :=
    antitoneOn_of_hasDerivWithinAt_nonpos (convex_Icc _ _) hcv
      (fun t ht => (h2 t (interior_subset ht)).mono interior_subset) (fun t ht => ha t (interior_subset ht))
  have hrise : ∀ t ∈ Icc t₀ T, 0 ≤ (s t).vel.z → MonotoneOn (fun τ => (s τ).pos.z) (Icc t₀ t) := by
    intro t ht h0
    refine monotoneOn_of_hasDerivWithinAt_nonneg (f' := fun τ => (s τ).vel.z) (convex_Icc _ _) (hcz.mono (hsub t ht)) ?_ ?_
    · intro τ hτ
      exact (h1 τ (hsub t ht (interior_subset hτ))).mono (interior_subset.trans (hsub t ht))
    · intro τ hτ
      have hτ := interior_subset hτ
      exact le_trans h0 (hanti (hsub t ht hτ) ht hτ.2)
  have hen : ∀ t ∈ Icc t₀ T, 0 ≤ (s t).vel.z → (s t₀).pos.z ≤ (s t).pos.z ∧
      (s t).vel.z ^ 2 / 2 - 398600.5e9 / ((s t).pos.z + 6371000) ≤ (s t₀).vel.z ^ 2 / 2 - 398600.5e9 / ((s t₀).pos.z + 6371000) := by
    intro t ht h0
    have hm := hrise t ht h0
    have hl : t₀ ∈ Icc t₀ t := ⟨le_rfl, ht.1⟩
    have hr : t ∈ Icc t₀ t := ⟨ht.1, le_rfl⟩
    refine ⟨hm hl hr ht.1, ?_⟩
    have hpos : ∀ τ ∈ Icc t₀ t, 0 < (s τ).pos.z + 6371000 := fun τ hτ => by
      have : (s t₀).pos.z ≤ (s τ).pos.z := hm hl hτ hτ.1
      linarith
    have hd : ∀ τ ∈ Icc t₀ t, HasDerivWithinAt (fun τ => (s τ).vel.z ^ 2 / 2 - 398600.5e9 / ((s τ).pos.z + 6371000))
        ((s τ).vel.z * (a τ + 398600.5e9 / ((s τ).pos.z + 6371000) ^ 2)) (Icc t₀ t) τ := by
      intro τ hτ
      have p1 := (h1 τ (hsub t ht hτ)).mono (hsub t ht)
      have p2 := (h2 τ (hsub t ht hτ)).mono (hsub t ht)
      have p3 := ((p1.add_const (6371000 : ℝ)).inv (hpos τ hτ).ne').const_mul (398600.5e9 : ℝ)
      have p4 := ((p2.pow 2).div_const 2).sub p3
      have := (hpos τ hτ).ne'
      refine (p4.congr_deriv ?_).congr (fun r _ => ?_) ?_
      · field_simp
        ring
      · simp [div_eq_mul_inv]
      · simp [div_eq_mul_inv]
    have := antitoneOn_of_hasDerivWithinAt_nonpos (f' := fun τ => (s τ).vel.z * (a τ + 398600.5e9 / ((s τ).pos.z + 6371000) ^ 2)) (convex_Icc t₀ t)
      (fun τ hτ => (hd τ hτ).continuousWithinAt) (fun τ hτ => (hd τ (interior_subset hτ)).mono interior_subset) (fun τ hτ => by
        have hτ := interior_subset hτ
        have e1 : 0 ≤ (s τ).vel.z := le_trans h0 (hanti (hsub t ht hτ) ht hτ.2)
        have e2 := h3 τ (hsub t ht hτ)
        exact mul_nonpos_of_nonneg_of_nonpos e1 (by linarith))
    exact this hl hr ht.1
  refine ⟨hanti, hen, ?_⟩
  have low : ∀ t ∈ Icc t₀ T, 0 ≤ (s t).vel.z → ∀ H : ℝ, (s t₀).pos.z ≤ H →
      (s t₀).vel.z ^ 2 / 2 - 398600.5e9 / ((s t₀).pos.z + 6371000) ≤ -(398600.5e9 / (H + 6371000)) → (s t).pos.z ≤ H := by
    intro t ht h0 H hH hb
    obtain ⟨e1, e2⟩ := hen t ht h0
    have q1 : 0 < (s t).pos.z + 6371000 := by linarith
    have q2 : 0 < H + 6371000 := by linarith
    have : (398600.5e9 : ℝ) / (H + 6371000) ≤ 398600.5e9 / ((s t).pos.z + 6371000) := by
      have := sq_nonneg (s t).vel.z
      linarith
    rw [div_le_div_iff_of_pos_left (by norm_num) q2 q1] at this
    linarith
  intro t ht H hH hb
  rcases le_or_gt 0 (s t).vel.z with h0 | h0
  · exact low t ht h0 H hH hb
  · obtain ⟨τ, hτ, e⟩ := intermediate_value_Icc' ht.1 (hcv.mono (hsub t ht)) ⟨h0.le, hv⟩
    have e : (s τ).vel.z = 0 := e
    have hτ' := hsub t ht hτ
    refine le_trans ?_ (low τ hτ' e.ge H hH hb)
    have hss : Icc τ t ⊆ Icc t₀ T := Icc_subset_Icc hτ.1 ht.2
    have := antitoneOn_of_hasDerivWithinAt_nonpos (f' := fun τ => (s τ).vel.z) (convex_Icc τ t) (hcz.mono hss)
      (fun r hr => (h1 r (hss (interior_subset hr))).mono (interior_subset.trans hss)) (fun r hr => by
        have hr := interior_subset hr
        have : (s r).vel.z ≤ (s τ).vel.z := hanti hτ' (hss hr) hr.1
        linarith)
    exact this ⟨le_rfl, hτ.2⟩ ⟨hτ.2, le_rfl⟩ hτ.2

end Mapleaf.Rocket
