import Verif.Spec.View
import Verif.Spec.Retrace
import Verif.Props.Boundary
import Verif.Props.Normals

/-! Interiors and exteriors of composites are open; near a point that lies on one surface only, a composite is inside that surface, outside it,
or does not change. -/

namespace PyRayT

open Classical Matrix Spec Topology Filter

variable (argsort : List EReal → List ℕ)

theorem isClosed_closed (p : Prim) : IsClosed {x : Vec4 | Spec.Closed p x} := by
  cases p with
  | sphere rad => exact isClosed_le (by fun_prop) (by fun_prop)
  | paraboloid f h =>
    have h1 : IsClosed {x : Vec4 | x 0 ^ 2 + x 1 ^ 2 ≤ 4 * f * x 2} := isClosed_le (by fun_prop) (by fun_prop)
    have h2 : IsClosed {x : Vec4 | x 2 ≤ h} := isClosed_le (by fun_prop) (by fun_prop)
    exact h1.inter h2
  | plane w l =>
    have h1 : IsClosed {x : Vec4 | x 2 = 0} := isClosed_eq (by fun_prop) (by fun_prop)
    have h2 : IsClosed {x : Vec4 | |x 0| ≤ w / 2} := isClosed_le (by fun_prop) (by fun_prop)
    have h3 : IsClosed {x : Vec4 | |x 1| ≤ l / 2} := isClosed_le (by fun_prop) (by fun_prop)
    exact h1.inter (h2.inter h3)
  | cube a b =>
    have : {x : Vec4 | Spec.Closed (.cube a b) x} =
        ⋂ i : Fin 3, {x : Vec4 | min (a i) (b i) ≤ x i.castSucc} ∩ {x : Vec4 | x i.castSucc ≤ max (a i) (b i)} := by
      ext x; simp [Spec.Closed]
    rw [this]
    exact isClosed_iInter fun i => (isClosed_le (by fun_prop) (by fun_prop)).inter (isClosed_le (by fun_prop) (by fun_prop))
  | cylinder rad a b =>
    have h1 : IsClosed {x : Vec4 | x 0 ^ 2 + x 1 ^ 2 ≤ rad ^ 2} := isClosed_le (by fun_prop) (by fun_prop)
    have h2 : IsClosed {x : Vec4 | min a b ≤ x 2} := isClosed_le (by fun_prop) (by fun_prop)
    have h3 : IsClosed {x : Vec4 | x 2 ≤ max a b} := isClosed_le (by fun_prop) (by fun_prop)
    exact h1.inter (h2.inter h3)

theorem leaf_interior_iff {p : Prim} {w : Mat4} (hw : w.det ≠ 0) (q : Vec4) :
    (Solid.leaf p w).Interior q ↔ Spec.Interior p (w⁻¹ *ᵥ q) := by
  have hu : IsUnit w.det := isUnit_iff_ne_zero.2 hw
  simp only [Solid.Interior]
  constructor
  · rintro ⟨x, rfl, h⟩
    rwa [mulVec_mulVec, nonsing_inv_mul _ hu, one_mulVec]
  · exact fun h => ⟨_, by rw [mulVec_mulVec, mul_nonsing_inv _ hu, one_mulVec], h⟩

theorem leaf_outside_iff {p : Prim} {w : Mat4} (hw : w.det ≠ 0) (q : Vec4) :
    (Solid.leaf p w).Outside q ↔ ¬ Spec.Closed p (w⁻¹ *ᵥ q) := by
  have hu : IsUnit w.det := isUnit_iff_ne_zero.2 hw
  simp only [Solid.Outside]
  constructor
  · exact fun h => h _ (by rw [mulVec_mulVec, mul_nonsing_inv _ hu, one_mulVec])
  · rintro h x rfl
    rwa [mulVec_mulVec, nonsing_inv_mul _ hu, one_mulVec] at h

/-- interior and exterior of a solid are open -/
theorem solid_open : ∀ (s : Solid), (s.All fun _ w => w.det ≠ 0) → IsOpen {q | s.Interior q} ∧ IsOpen {q | s.Outside q}
  | .leaf p w, hw => by
    have hc : Continuous fun q : Vec4 => w⁻¹ *ᵥ q := by
      refine continuous_pi fun i => ?_
      simp only [mulVec4]
      fun_prop
    have e1 : {q | (Solid.leaf p w).Interior q} = (fun q : Vec4 => w⁻¹ *ᵥ q) ⁻¹' {x | Spec.Interior p x} := by
      ext q; exact leaf_interior_iff hw q
    have e2 : {q | (Solid.leaf p w).Outside q} = (fun q : Vec4 => w⁻¹ *ᵥ q) ⁻¹' {x | Spec.Closed p x}ᶜ := by
      ext q; exact leaf_outside_iff hw q
    rw [e1, e2]
    exact ⟨(isOpen_interior p).preimage hc, (isClosed_closed p).isOpen_compl.preimage hc⟩
  | .node op l r, hw => by
    have hl := solid_open l hw.1
    have hr := solid_open r hw.2
    cases op with
    | union =>
      simp only [Solid.Interior, Solid.Outside]
      exact ⟨hl.1.union hr.1, hl.2.inter hr.2⟩
    | intersect =>
      simp only [Solid.Interior, Solid.Outside]
      exact ⟨hl.1.inter hr.1, hl.2.union hr.2⟩
    | difference =>
      simp only [Solid.Interior, Solid.Outside]
      exact ⟨hl.1.inter hr.2, hl.2.union hr.1⟩

/-- How a composite depends on one of its surfaces near a point that lies on no other surface. -/
theorem local_shape {h : Heap} {x : ℕ} {p : Prim} (hx : (h.obj x).kind = .prim p) {q : Vec4} {a : ℕ} {s : Solid} (hrep : Represents h a s)
    (hw : s.All fun _ w => w.det ≠ 0)
    (honce : ∀ n op l r, Under h a n → (h.obj n).kind = .csg op l r → Under h l x → ¬ Under h r x)
    (hother : ∀ y p', Under h a y → y ≠ x → (h.obj y).kind = .prim p' → (Solid.leaf p' (h.obj y).world).Interior q ∨
      (Solid.leaf p' (h.obj y).world).Outside q) :
    s.Interior q ∨ s.Outside q ∨
    (Under h a x ∧ ∀ᶠ q' in 𝓝 q, ((Solid.leaf p (h.obj x).world).Interior q' → s.Interior q') ∧ ((Solid.leaf p (h.obj x).world).Outside q' → s.Outside q')) ∨
    (Under h a x ∧ ∀ᶠ q' in 𝓝 q, ((Solid.leaf p (h.obj x).world).Interior q' → s.Outside q') ∧ ((Solid.leaf p (h.obj x).world).Outside q' → s.Interior q')) := by
  induction hrep with
  | @leaf a p' hk =>
    by_cases e : a = x
    · subst e
      rw [hk] at hx
      cases hx
      exact .inr (.inr (.inl ⟨.refl, Eventually.of_forall fun q' => ⟨id, id⟩⟩))
    · rcases hother a p' .refl e hk with h | h
      · exact .inl h
      · exact .inr (.inl h)
  | @node a l r op sl sr hk hl hr ihl ihr =>
    have pl : IsParent h a l := ⟨op, l, r, hk, Or.inl rfl⟩
    have pr : IsParent h a r := ⟨op, l, r, hk, Or.inr rfl⟩
    have ul : ∀ {y}, Under h l y → Under h a y := fun hu => Under.trans (.step .refl pl) hu
    have ur : ∀ {y}, Under h r y → Under h a y := fun hu => Under.trans (.step .refl pr) hu
    have kl := ihl hw.1 (fun n op l r hu => honce n op l r (ul hu)) (fun y p' hu => hother y p' (ul hu))
    have kr := ihr hw.2 (fun n op l r hu => honce n op l r (ur hu)) (fun y p' hu => hother y p' (ur hu))
    have hn := honce a op l r .refl hk
    obtain ⟨oil, ool⟩ := solid_open sl hw.1
    obtain ⟨oir, oor⟩ := solid_open sr hw.2
    have fil : sl.Interior q → ∀ᶠ q' in 𝓝 q, sl.Interior q' := fun h => oil.mem_nhds h
    have fol : sl.Outside q → ∀ᶠ q' in 𝓝 q, sl.Outside q' := fun h => ool.mem_nhds h
    have fir : sr.Interior q → ∀ᶠ q' in 𝓝 q, sr.Interior q' := fun h => oir.mem_nhds h
    have for' : sr.Outside q → ∀ᶠ q' in 𝓝 q, sr.Outside q' := fun h => oor.mem_nhds h
    cases op with
    | union =>
      simp only [Solid.Interior, Solid.Outside]
      rcases kl with hi | ho | ⟨u, hd⟩ | ⟨u, hd⟩
      · exact .inl (.inl hi)
      · rcases kr with hi' | ho' | ⟨u', hd'⟩ | ⟨u', hd'⟩
        · exact .inl (.inr hi')
        · exact .inr (.inl ⟨ho, ho'⟩)
        · refine .inr (.inr (.inl ⟨ur u', ?_⟩))
          filter_upwards [fol ho, hd'] with q' h1 h2 using ⟨fun h => .inr (h2.1 h), fun h => ⟨h1, h2.2 h⟩⟩
        · refine .inr (.inr (.inr ⟨ur u', ?_⟩))
          filter_upwards [fol ho, hd'] with q' h1 h2 using ⟨fun h => ⟨h1, h2.1 h⟩, fun h => .inr (h2.2 h)⟩
      · rcases kr with hi' | ho' | ⟨u', -⟩ | ⟨u', -⟩
        · exact .inl (.inr hi')
        · refine .inr (.inr (.inl ⟨ul u, ?_⟩))
          filter_upwards [for' ho', hd] with q' h1 h2 using ⟨fun h => .inl (h2.1 h), fun h => ⟨h2.2 h, h1⟩⟩
        · exact absurd u' (hn u)
        · exact absurd u' (hn u)
      · rcases kr with hi' | ho' | ⟨u', -⟩ | ⟨u', -⟩
        · exact .inl (.inr hi')
        · refine .inr (.inr (.inr ⟨ul u, ?_⟩))
          filter_upwards [for' ho', hd] with q' h1 h2 using ⟨fun h => ⟨h2.1 h, h1⟩, fun h => .inl (h2.2 h)⟩
        · exact absurd u' (hn u)
        · exact absurd u' (hn u)
    | intersect =>
      simp only [Solid.Interior, Solid.Outside]
      rcases kl with hi | ho | ⟨u, hd⟩ | ⟨u, hd⟩
      · rcases kr with hi' | ho' | ⟨u', hd'⟩ | ⟨u', hd'⟩
        · exact .inl ⟨hi, hi'⟩
        · exact .inr (.inl (.inr ho'))
        · refine .inr (.inr (.inl ⟨ur u', ?_⟩))
          filter_upwards [fil hi, hd'] with q' h1 h2 using ⟨fun h => ⟨h1, h2.1 h⟩, fun h => .inr (h2.2 h)⟩
        · refine .inr (.inr (.inr ⟨ur u', ?_⟩))
          filter_upwards [fil hi, hd'] with q' h1 h2 using ⟨fun h => .inr (h2.1 h), fun h => ⟨h1, h2.2 h⟩⟩
      · exact .inr (.inl (.inl ho))
      · rcases kr with hi' | ho' | ⟨u', -⟩ | ⟨u', -⟩
        · refine .inr (.inr (.inl ⟨ul u, ?_⟩))
          filter_upwards [fir hi', hd] with q' h1 h2 using ⟨fun h => ⟨h2.1 h, h1⟩, fun h => .inl (h2.2 h)⟩
        · exact .inr (.inl (.inr ho'))
        · exact absurd u' (hn u)
        · exact absurd u' (hn u)
      · rcases kr with hi' | ho' | ⟨u', -⟩ | ⟨u', -⟩
        · refine .inr (.inr (.inr ⟨ul u, ?_⟩))
          filter_upwards [fir hi', hd] with q' h1 h2 using ⟨fun h => .inl (h2.1 h), fun h => ⟨h2.2 h, h1⟩⟩
        · exact .inr (.inl (.inr ho'))
        · exact absurd u' (hn u)
        · exact absurd u' (hn u)
    | difference =>
      simp only [Solid.Interior, Solid.Outside]
      rcases kl with hi | ho | ⟨u, hd⟩ | ⟨u, hd⟩
      · rcases kr with hi' | ho' | ⟨u', hd'⟩ | ⟨u', hd'⟩
        · exact .inr (.inl (.inr hi'))
        · exact .inl ⟨hi, ho'⟩
        · refine .inr (.inr (.inr ⟨ur u', ?_⟩))
          filter_upwards [fil hi, hd'] with q' h1 h2 using ⟨fun h => .inr (h2.1 h), fun h => ⟨h1, h2.2 h⟩⟩
        · refine .inr (.inr (.inl ⟨ur u', ?_⟩))
          filter_upwards [fil hi, hd'] with q' h1 h2 using ⟨fun h => ⟨h1, h2.1 h⟩, fun h => .inr (h2.2 h)⟩
      · exact .inr (.inl (.inl ho))
      · rcases kr with hi' | ho' | ⟨u', -⟩ | ⟨u', -⟩
        · exact .inr (.inl (.inr hi'))
        · refine .inr (.inr (.inl ⟨ul u, ?_⟩))
          filter_upwards [for' ho', hd] with q' h1 h2 using ⟨fun h => ⟨h2.1 h, h1⟩, fun h => .inl (h2.2 h)⟩
        · exact absurd u' (hn u)
        · exact absurd u' (hn u)
      · rcases kr with hi' | ho' | ⟨u', -⟩ | ⟨u', -⟩
        · exact .inr (.inl (.inr hi'))
        · refine .inr (.inr (.inr ⟨ul u, ?_⟩))
          filter_upwards [for' ho', hd] with q' h1 h2 using ⟨fun h => .inl (h2.1 h), fun h => ⟨h2.2 h, h1⟩⟩
        · exact absurd u' (hn u)
        · exact absurd u' (hn u)

/-- a property that holds near a point holds just before and just after it on a ray through it -/
theorem eventually_soon {P : Vec4 → Prop} {ray : Ray} {t : ℝ} (h : ∀ᶠ q in 𝓝 (ray.at t), P q) :
    Soon fun u => P (ray.at (t - u)) ∧ P (ray.at (t + u)) := by
  have hc : Continuous fun s : ℝ => ray.at s := by
    refine continuous_pi fun i => ?_
    simp only [Ray.at]
    fun_prop
  have := hc.continuousAt.eventually h
  obtain ⟨ε, he, hb⟩ := Metric.eventually_nhds_iff.1 this
  exact ⟨ε, he, fun u h0 h1 => ⟨hb (by simp [Real.dist_eq, abs_of_pos h0, h1]), hb (by simp [Real.dist_eq, abs_of_pos h0, h1])⟩⟩

end PyRayT
