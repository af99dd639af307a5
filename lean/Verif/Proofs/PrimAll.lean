import Verif.Spec.CsgTree
import Verif.Model.Solid
import Verif.Proofs.World2
import Mathlib.Topology.Instances.Real.Lemmas
import Mathlib.Topology.Algebra.Monoid
import Mathlib.Tactic.Continuity
import Mathlib.Tactic.FunProp

/-! All primitives at once: the two hits delimit the solid; interiors are open and strictly inside the box. -/

namespace PyRayT

open Classical Matrix

theorem prim_sbtw {p : Prim} {r : Ray} (hs : Spec.Sees p r) {t : ℝ} (hi : Spec.Interior p (r.at t)) :
    SBtw (sort2 (p.intersect r)) t := by
  cases p with
  | sphere rad => exact (sphere_sbtw rad (dirSq_pos hs) t).2 hi
  | paraboloid f h =>
    obtain ⟨hf, hh, hz, hr⟩ := hs
    rw [sort2_of_le]
    · exact par_sbtw hf hr hz t hi
    · exact clip_le _ _
  | plane w l => exact hi.elim
  | cube a b =>
    rw [Prim.intersect, sort2_of_le (boxIntersect_le _ _)]
    refine boxIntersect_sbtw hs t ?_
    simp only [InBoxS, toBox, cubeSpans, EReal.coe_lt_coe_iff]
    exact ⟨hi 0, hi 1, hi 2⟩
  | cylinder rad a b =>
    obtain ⟨hab, hr, hz⟩ := hs
    rw [sort2_of_le]
    · exact cyl_sbtw hab hr hz t hi
    · exact clip_le _ _

theorem prim_btw {p : Prim} {r : Ray} (hs : Spec.Sees p r) {t : ℝ} (hi : Btw (sort2 (p.intersect r)) t) :
    Spec.Closed p (r.at t) := by
  cases p with
  | sphere rad => exact (sphere_btw rad (dirSq_pos hs) t).1 hi
  | paraboloid f h =>
    obtain ⟨hf, hh, hz, hr⟩ := hs
    rw [sort2_of_le] at hi
    · exact (par_btw hf hh hr hz t).1 hi
    · exact clip_le _ _
  | plane w l =>
    obtain ⟨hw, hl, hd⟩ := hs
    have e := plane_eq w l hw hl r hd
    rw [Prim.intersect, e] at hi
    split at hi
    · rename_i hc
      simp only [Btw, sort2, min_self, max_self, EReal.coe_le_coe_iff] at hi
      rw [show t = -(r.o 2) / r.d 2 from le_antisymm hi.2 hi.1]
      exact hc.2
    · simp [Btw, sort2] at hi
  | cube a b =>
    rw [Prim.intersect, sort2_of_le (boxIntersect_le _ _)] at hi
    have := boxIntersect_btw_imp (b := toBox (cubeSpans a b)) (fun i => by simp [toBox, cubeSpans]) hs t hi
    simp only [InBox, toBox, cubeSpans, EReal.coe_le_coe_iff] at this
    intro i
    fin_cases i
    · exact this.1
    · exact this.2.1
    · exact this.2.2
  | cylinder rad a b =>
    obtain ⟨hab, hr, hz⟩ := hs
    rw [sort2_of_le] at hi
    · exact (cyl_btw hab hr hz t).1 hi
    · exact clip_le _ _

theorem isOpen_interior (p : Prim) : IsOpen {x : Vec4 | Spec.Interior p x} := by
  cases p with
  | sphere rad => exact isOpen_lt (by fun_prop) (by fun_prop)
  | paraboloid f h =>
    have h1 : IsOpen {x : Vec4 | x 0 ^ 2 + x 1 ^ 2 < 4 * f * x 2} := isOpen_lt (by fun_prop) (by fun_prop)
    have h2 : IsOpen {x : Vec4 | x 2 < h} := isOpen_lt (by fun_prop) (by fun_prop)
    exact h1.inter h2
  | plane w l => simp [Spec.Interior]
  | cube a b =>
    have : {x : Vec4 | Spec.Interior (.cube a b) x} =
        ⋂ i : Fin 3, {x : Vec4 | min (a i) (b i) < x i.castSucc} ∩ {x : Vec4 | x i.castSucc < max (a i) (b i)} := by
      ext x; simp [Spec.Interior]
    rw [this]
    exact isOpen_iInter_of_finite fun i => (isOpen_lt (by fun_prop) (by fun_prop)).inter (isOpen_lt (by fun_prop) (by fun_prop))
  | cylinder rad a b =>
    have h1 : IsOpen {x : Vec4 | x 0 ^ 2 + x 1 ^ 2 < rad ^ 2} := isOpen_lt (by fun_prop) (by fun_prop)
    have h2 : IsOpen {x : Vec4 | min a b < x 2} := isOpen_lt (by fun_prop) (by fun_prop)
    have h3 : IsOpen {x : Vec4 | x 2 < max a b} := isOpen_lt (by fun_prop) (by fun_prop)
    exact h1.inter (h2.inter h3)

theorem interior_closed {p : Prim} {x : Vec4} (h : Spec.Interior p x) : Spec.Closed p x := by
  cases p with
  | sphere rad => exact le_of_lt h
  | paraboloid f h' => exact ⟨le_of_lt h.1, le_of_lt h.2⟩
  | plane w l => exact h.elim
  | cube a b => exact fun i => ⟨(h i).1.le, (h i).2.le⟩
  | cylinder rad a b => exact ⟨h.1.le, h.2.1.le, h.2.2.le⟩

/-- an interior point can be displaced a little in any direction -/
theorem interior_room {p : Prim} {x : Vec4} (h : Spec.Interior p x) (v : Vec4) :
    ∃ ε : ℝ, 0 < ε ∧ Spec.Interior p (x + ε • v) ∧ Spec.Interior p (x - ε • v) := by
  have hc : Continuous fun s : ℝ => x + s • v := by fun_prop
  have ho := (isOpen_interior p).preimage hc
  obtain ⟨ε, he, hb⟩ := Metric.isOpen_iff.1 ho 0 (by simpa using h)
  refine ⟨ε / 2, by positivity, hb ?_, ?_⟩
  · simp [Real.dist_eq, abs_of_pos he, abs_of_pos]; linarith
  · have : (-(ε / 2)) ∈ Metric.ball (0 : ℝ) ε := by simp [Real.dist_eq, abs_of_pos he]; linarith
    have := hb this
    simpa [sub_eq_add_neg] using this

/-- a placement matrix as the movement methods build them -/
def Affine (w : Mat4) : Prop := w 3 = ![0, 0, 0, 1] ∧ w.det ≠ 0

theorem affine_three {w : Mat4} (hw : Affine w) (x : Vec4) : (w *ᵥ x) 3 = x 3 := by
  rw [mulVec4, hw.1]; simp

theorem affine_row {w : Mat4} (hw : Affine w) (i : Fin 3) : w i.castSucc 0 ≠ 0 ∨ w i.castSucc 1 ≠ 0 ∨ w i.castSucc 2 ≠ 0 := by
  by_contra hc
  push Not at hc
  obtain ⟨h0, h1, h2⟩ := hc
  apply hw.2
  have e0 : w 3 0 = 0 := by rw [hw.1]; rfl
  have e1 : w 3 1 = 0 := by rw [hw.1]; rfl
  have e2 : w 3 2 = 0 := by rw [hw.1]; rfl
  rw [det4, e0, e1, e2]
  fin_cases i
  · change w 0 0 = 0 at h0; change w 0 1 = 0 at h1; change w 0 2 = 0 at h2; rw [h0, h1, h2]; ring
  · change w 1 0 = 0 at h0; change w 1 1 = 0 at h1; change w 1 2 = 0 at h2; rw [h0, h1, h2]; ring
  · change w 2 0 = 0 at h0; change w 2 1 = 0 at h1; change w 2 2 = 0 at h2; rw [h0, h1, h2]; ring

/-- the interior of a placed primitive lies strictly inside its bounding box -/
theorem interior_in_box {p : Prim} (hv : p.Valid) {w : Mat4} (hw : Affine w) {x : Vec4} (hx : x 3 = 1)
    (hi : Spec.Interior p x) (i : Fin 3) :
    (primBox w p i).1 < (((w *ᵥ x) i.castSucc : ℝ) : EReal) ∧ (((w *ᵥ x) i.castSucc : ℝ) : EReal) < (primBox w p i).2 := by
  have key : ∃ j : Fin 3, w i.castSucc j.castSucc ≠ 0 := by
    rcases affine_row hw i with h | h | h
    · exact ⟨0, h⟩
    · exact ⟨1, h⟩
    · exact ⟨2, h⟩
  obtain ⟨j, hj⟩ := key
  set v : Vec4 := Pi.single j.castSucc (w i.castSucc j.castSucc) with hvv
  obtain ⟨ε, he, hp, hm⟩ := interior_room hi v
  have v3 : v 3 = 0 := by
    rw [hvv, Pi.single_apply, if_neg]; fin_cases j <;> decide
  have hmv : (w *ᵥ v) i.castSucc = w i.castSucc j.castSucc ^ 2 := by
    rw [hvv, Matrix.mulVec_single]; simp [sq]
  have hpos : 0 < ε * w i.castSucc j.castSucc ^ 2 := mul_pos he (by positivity)
  have b1 := box_contains w p.boundSpans (x + ε • v) (by simp [hx, v3])
    (closed_in_spans p hv _ (interior_closed hp)) i
  have b2 := box_contains w p.boundSpans (x - ε • v) (by simp [hx, v3])
    (closed_in_spans p hv _ (interior_closed hm)) i
  rw [mulVec_add, mulVec_smul] at b1
  rw [mulVec_sub, mulVec_smul] at b2
  simp only [Pi.add_apply, Pi.sub_apply, Pi.smul_apply, smul_eq_mul, hmv] at b1 b2
  constructor
  · exact lt_of_le_of_lt b2.1 (EReal.coe_lt_coe_iff.2 (by linarith))
  · exact lt_of_lt_of_le (EReal.coe_lt_coe_iff.2 (by linarith)) b1.2

theorem boundingBox_finite (pts : List Vec4) (hne : pts ≠ []) (i : Fin 3) :
    (boundingBox pts i).1 ≠ ⊥ ∧ (boundingBox pts i).2 ≠ ⊤ := by
  have h1 : ∀ pts : List Vec4, (⊥ : EReal) < pts.foldr (fun p acc => min ((p i.castSucc : ℝ) : EReal) acc) ⊤ := by
    intro pts
    induction pts with
    | nil => simp
    | cons p ps ih => rw [List.foldr_cons, lt_min_iff]; exact ⟨EReal.bot_lt_coe _, ih⟩
  have h2 : ∀ pts : List Vec4, pts.foldr (fun p acc => max ((p i.castSucc : ℝ) : EReal) acc) ⊥ < ⊤ := by
    intro pts
    induction pts with
    | nil => simp
    | cons p ps ih => rw [List.foldr_cons, max_lt_iff]; exact ⟨EReal.coe_lt_top _, ih⟩
  obtain ⟨p, hp⟩ := List.exists_mem_of_ne_nil _ hne
  have h3 := foldr_min_le pts i.castSucc hp
  have h4 := le_foldr_max pts i.castSucc hp
  unfold boundingBox sort2
  constructor
  · refine ne_of_gt (lt_min (h1 pts) ?_)
    exact lt_of_lt_of_le (EReal.bot_lt_coe _) h4
  · refine ne_of_lt (max_lt ?_ (h2 pts))
    exact lt_of_le_of_lt h3 (EReal.coe_lt_top _)

theorem primBox_finite (w : Mat4) (p : Prim) (i : Fin 3) : (primBox w p i).1 ≠ ⊥ ∧ (primBox w p i).2 ≠ ⊤ := by
  apply boundingBox_finite
  intro h
  rw [List.map_eq_nil_iff] at h
  have := corner_mem p.boundSpans _ _ _ (Or.inl rfl) (Or.inl rfl) (Or.inl rfl)
  rw [h] at this
  simp at this

end PyRayT
