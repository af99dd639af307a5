import Verif.Props.Spheres
import Mathlib.Tactic.NormNum.RealSqrt
import Mathlib.Tactic.NormNum.Abs

/-!
# Property C115: confocal parabolic mirrors
-/

namespace PyRayT

open Classical Matrix Spec

variable {argsort : List EReal → List ℕ} {fuel : ℕ} {s : Scene} {objs : List ℕ} {depth : ℕ}

/-! ### specification -/

/-- The row ends on the curved part of a paraboloid of focal length `φ` that has been moved and turned but not scaled, with the focus `F` and the unit vector `e` along the axis, out of
the opening: the end is as far from the focus as from the plane across the axis behind the vertex. It is not so near the height of the rim that the flat lid's normal is taken. -/
def Spec.EndsOnParaboloid (s : Scene) (objs : List ℕ) (depth : ℕ) (F e : Vec4) (φ : ℝ) (x : ℕ) (r : Row) : Prop :=
  ∃ a ∈ objs, ∃ (id : ℕ) (h : ℝ), (id, x) ∈ surfaceIds depth s.heap a ∧ r.surface = (id : ℤ) ∧ (s.heap.obj x).kind = .prim (.paraboloid φ h) ∧
    Isometry (s.heap.obj x).world ∧ (s.heap.obj x).world *ᵥ point 0 0 φ = F ∧ (s.heap.obj x).world *ᵥ vector 0 0 1 = e ∧
    norm4 (r.finish - F) = dot4 e (r.finish - F) + 2 * φ ∧ ¬ isclose (dot4 e (r.finish - F) + φ) h

/-- the distance of a point from the line through `F` along the unit vector `e` -/
noncomputable def Spec.fromAxis (F e p : Vec4) : ℝ := norm4 (p - F - dot4 e (p - F) • e)

/-! ### proofs -/

theorem norm4_smul_abs (x : ℝ) (v : Vec4) : norm4 (x • v) = |x| * norm4 v := by
  rw [norm4_eq, norm4_eq, ← Real.sqrt_sq_eq_abs, ← Real.sqrt_mul (sq_nonneg x)]
  congr 1
  simp [dot4]; ring

theorem dot4_diff_self (x y : ℝ) (a b : Vec4) : dot4 (x • (a - y • b)) (x • (a - y • b)) = x ^ 2 * (dot4 a a - 2 * y * dot4 a b + y ^ 2 * dot4 b b) := by
  simp [dot4]; ring

/-- the normal of a paraboloid -/
theorem paraboloid_normal {o : Obj} (hw : Isometry o.world) (ho : o.objT = o.world⁻¹) {φ h : ℝ} {p F e : Vec4} (hp : p 3 = 1)
    (hF : o.world *ᵥ point 0 0 φ = F) (he : o.world *ᵥ vector 0 0 1 = e) (hon : norm4 (p - F) = dot4 e (p - F) + 2 * φ)
    (hrim : ¬ isclose (dot4 e (p - F) + φ) h) : ∃ μ : ℝ, worldNormal o (.paraboloid φ h) p = μ • (p - F - norm4 (p - F) • e) := by
  have hF3 : F 3 = 1 := by rw [← hF, hw.three]; rfl
  have hd : (p - F) 3 = 0 := by simp [hp, hF3]
  have hd' : (o.world⁻¹ *ᵥ (p - F)) 3 = 0 := by rw [← hw.three (o.world⁻¹ *ᵥ (p - F)), hw.mulVec_inv, hd]
  have el : o.objT *ᵥ p = point 0 0 φ + o.world⁻¹ *ᵥ (p - F) := by
    rw [ho, mulVec_sub, ← hF, hw.inv_mulVec]; abel
  set l := o.world⁻¹ *ᵥ (p - F) with hl
  have hl2 : dot4 e (p - F) = l 2 := by
    have h1 : dot4 (o.world *ᵥ vector 0 0 1) (o.world *ᵥ l) = dot4 (vector 0 0 1) l := hw.dot rfl hd'
    rw [he, hl, hw.mulVec_inv, ← hl] at h1
    rw [h1]; simp [dot4, vector]
  have h2 : (o.objT *ᵥ p) 2 = l 2 + φ := by rw [el]; simp [point]; ring
  have e2 : (![(o.objT *ᵥ p) 0, (o.objT *ᵥ p) 1, -2 * φ, 0] : Vec4) = l - norm4 (p - F) • vector 0 0 1 := by
    rw [el, hon, hl2]; funext i; fin_cases i <;> simp [point, vector, hd']
  have e3 : ∀ v : Vec4, v 3 = 0 → zeroW (normalize v) = normalize v := by
    intro v hv; funext i; fin_cases i <;> simp [zeroW, normalize, hv]
  simp only [worldNormal, Prim.normal]
  rw [if_neg (by rw [h2, ← hl2]; exact hrim), e2, ho, hw.zeroW, e3 _ (by simp [hd', vector]), normalize_smul_eq (l - _), mulVec_smul, mulVec_sub, mulVec_smul, he, hl, hw.mulVec_inv,
    normalize_smul_eq, smul_smul, smul_smul]
  exact ⟨_, rfl⟩

section
variable {sources : List (ℕ → List Col)} {m : ℕ} {limit : ℤ} {k : ℕ} {f : Tracer}

/-- what the parabolic mirror at the end of a row does -/
theorem paraboloid_mirror (ha : IsArgsort argsort) (b : Bench argsort fuel s objs depth sources m)
    (ht : Tracer.Traces k (Tracer.new sources (objs.map (s.component argsort depth)) m limit) f) {r r' : Row} (hr : r ∈ f.frame)
    (hr' : r' ∈ f.frame) (hf : Follows r r') {F e : Vec4} {φ : ℝ} {x : ℕ} (hp : EndsOnParaboloid s objs depth F e φ x r) (hm : s.material x = .mirror) :
    dot4 e e = 1 ∧ 0 < φ ∧ 0 < norm4 (r.finish - F) ∧ ∃ μ : ℝ, μ ^ 2 * (4 * φ * norm4 (r.finish - F)) = 1 ∧
      ∀ i, r'.dir i = r.dir i - 2 * μ ^ 2 * (dot4 r.dir (r.finish - F) - norm4 (r.finish - F) * dot4 r.dir e) * ((r.finish - F) i - norm4 (r.finish - F) * e i) := by
  obtain ⟨a, haa, id, h, hx, hid, hk, hw, hF, he, hon, hrim⟩ := hp
  obtain ⟨hn1, -, hint⟩ := b.optics ha ht hr hr' hf haa hx hid
  have hinv := reaches_inv argsort empty_inv b.history.reaches
  obtain ⟨hxs, -, -⟩ := surfaceIds_spec hinv depth a (b.exist a haa) _ hx
  obtain ⟨μ, hμ⟩ := paraboloid_normal hw (hinv.synced x hxs).2.1 (p := r.finish) rfl hF he hon hrim
  have hn : surfaceNormal s.heap x r.finish = μ • (r.finish - F - norm4 (r.finish - F) • e) := by
    simp only [surfaceNormal, hk, hμ]
  have hee : dot4 e e = 1 := by
    rw [← he, hw.dot rfl rfl]; simp [dot4, vector]
  set w := r.finish - F with hwd
  have hww := norm4_sq w
  have hew : dot4 e w = norm4 w - 2 * φ := by linarith
  have hR : 0 ≤ norm4 w := by rw [norm4_eq]; exact Real.sqrt_nonneg _
  set R := norm4 w with hRd
  have hcomm : dot4 w e = dot4 e w := dot4_symm _ _
  have hmu : μ ^ 2 * (4 * φ * R) = 1 := by
    rw [hn, dot4_diff_self, ← hww, hee, hcomm, hew] at hn1
    rw [← hn1]; ring
  have hpos : 0 < φ * R := by
    by_contra hneg
    have : μ ^ 2 * (4 * φ * R) ≤ 0 := by nlinarith [sq_nonneg μ]
    linarith
  have hR0 : 0 < R := lt_of_le_of_ne hR (fun h => by rw [← h] at hpos; simp at hpos)
  refine ⟨hee, pos_of_mul_pos_left hpos hR, hR0, μ, hmu, fun i => ?_⟩
  rw [hm] at hint
  rw [hint.1 i, hn]
  have : dot4 r.dir (μ • (w - R • e)) = μ * (dot4 r.dir w - R * dot4 r.dir e) := by simp [dot4]; ring
  rw [this]
  simp only [Pi.smul_apply, Pi.sub_apply, smul_eq_mul]
  ring

/-- **C115, one mirror.** At the curved part of a parabolic mirror, placed anywhere, a ray along the axis is sent on the line through the focus (towards it if it went against the
opening's direction), and a ray on a line through the focus is sent along the axis. -/
theorem C115_mirror (ha : IsArgsort argsort) (b : Bench argsort fuel s objs depth sources m)
    (ht : Tracer.Traces k (Tracer.new sources (objs.map (s.component argsort depth)) m limit) f) {r r' : Row} (hr : r ∈ f.frame)
    (hr' : r' ∈ f.frame) (hf : Follows r r') {F e : Vec4} {φ : ℝ} {x : ℕ} (hp : EndsOnParaboloid s objs depth F e φ x r) (hm : s.material x = .mirror)
    (σ : ℝ) :
    (r.dir = σ • e → norm4 (r.finish - F) • r'.dir = σ • (r.finish - F)) ∧ (norm4 (r.finish - F) • r.dir = σ • (r.finish - F) → r'.dir = σ • e) := by
  obtain ⟨-, -, -, -, -, -, -, -, -, -, hon, -⟩ := _root_.id hp
  obtain ⟨hee, hφ, hR, μ, hμ, hdir⟩ := paraboloid_mirror ha b ht hr hr' hf hp hm
  set w := r.finish - F with hwd
  have hww := norm4_sq w
  set R := norm4 w with hRd
  have hew : dot4 e w = R - 2 * φ := by linarith
  have hcomm : dot4 w e = dot4 e w := dot4_symm _ _
  constructor
  · intro hu
    funext i
    have e1 : dot4 r.dir w = σ * dot4 e w := by rw [hu]; simp [dot4]; ring
    have e2 : dot4 r.dir e = σ * dot4 e e := by rw [hu]; simp [dot4]; ring
    have e3 : r.dir i = σ * e i := by rw [hu]; simp
    simp only [Pi.smul_apply, smul_eq_mul]
    rw [hdir i, e1, e2, e3, hew, hee]
    linear_combination σ * (w i - R * e i) * hμ
  · intro hu
    have hu' : r.dir = (σ / R) • w := by
      rw [div_eq_inv_mul, mul_smul, ← hu, smul_smul, inv_mul_cancel₀ hR.ne', one_smul]
    funext i
    have e1 : dot4 r.dir w = σ / R * dot4 w w := by rw [hu']; simp [dot4]; ring
    have e2 : dot4 r.dir e = σ / R * dot4 w e := by rw [hu']; simp [dot4]; ring
    have e3 : r.dir i = σ / R * w i := by rw [hu']; simp
    simp only [Pi.smul_apply, smul_eq_mul]
    rw [hdir i, e1, e2, e3, hcomm, hew, ← hww]
    field_simp
    linear_combination -σ * (w i - R * e i) * hμ

/-- **C115.** Let two parabolic mirrors have one focus `F` and one axis; their openings look the same way (`ε = 1`) or opposite ways (`ε = -1`). Let a ray come along the axis, at any
distance from it, hit the first mirror, of focal length `f1`, and then the second, of focal length `f2`. It leaves along the axis again, and one of the two holds.

It goes on as it came; then the second place, seen from the focus, is the first one enlarged `ε f2 / f1` times: a parallel beam becomes a parallel beam, enlarged by exactly this number
without any distortion.

Or it goes back; then the product of the distances of the two places from the axis is `4 f1 f2`.

In both cases the way between two planes across the axis is the same for all rays: the distance between the places and the ways to the first and from the second, measured along the
axis, have a sum in which only the focal lengths occur. -/
theorem C115_confocal (ha : IsArgsort argsort) (b : Bench argsort fuel s objs depth sources m)
    (ht : Tracer.Traces k (Tracer.new sources (objs.map (s.component argsort depth)) m limit) f) {r r' r'' : Row} (hr : r ∈ f.frame)
    (hr' : r' ∈ f.frame) (hr'' : r'' ∈ f.frame) (hf : Follows r r') (hf' : Follows r' r'') {F e1 e2 : Vec4} {f1 f2 : ℝ} {x1 x2 : ℕ}
    (hp : EndsOnParaboloid s objs depth F e1 f1 x1 r) (hp' : EndsOnParaboloid s objs depth F e2 f2 x2 r') (hm : s.material x1 = .mirror) (hm' : s.material x2 = .mirror)
    {ε σ : ℝ} (hε : ε = 1 ∨ ε = -1) (he : e2 = ε • e1) (hσ : σ = 1 ∨ σ = -1) (hdir : r.dir = σ • e1) :
    (r''.dir = r.dir ∧ r'.finish - F = (ε * f2 / f1) • (r.finish - F) ∧
      norm4 (r'.finish - r.finish) + dot4 r.dir (r.finish - F) - dot4 r.dir (r'.finish - F) = 2 * σ * (ε * f2 - f1)) ∨
    (r''.dir = -r.dir ∧ fromAxis F e1 r.finish * fromAxis F e1 r'.finish = 4 * f1 * f2 ∧
      norm4 (r'.finish - r.finish) + dot4 r.dir (r.finish - F) + dot4 r.dir (r'.finish - F) = -2 * σ * (ε * f2 + f1)) := by
  obtain ⟨-, -, -, -, -, -, -, -, -, -, hon, -⟩ := _root_.id hp
  obtain ⟨-, -, -, -, -, -, -, -, -, -, hon', -⟩ := _root_.id hp'
  obtain ⟨hee, hφ, hR, -⟩ := paraboloid_mirror ha b ht hr hr' hf hp hm
  obtain ⟨-, hφ', hR', -⟩ := paraboloid_mirror ha b ht hr' hr'' hf' hp' hm'
  have hu := (C115_mirror ha b ht hr hr' hf hp hm σ).1 hdir
  obtain ⟨t, ht0, hfin, hu1⟩ : ∃ t : ℝ, 0 < t ∧ r'.finish = r.finish + t • r'.dir ∧ dot4 r'.dir r'.dir = 1 := by
    have ok := b.ok ha limit
    obtain ⟨d, hd, -, hst⟩ := C28_segment ok ht _ hr'
    obtain ⟨δ, hδ, hconn⟩ : ∃ δ : ℝ, 0 < δ ∧ ∀ i, r'.start i = r.stop i + δ * r'.tilt i :=
      ⟨1e-6, by norm_num, (C28_connected ok ht _ _ hr hr' hf.1 hf.2).1⟩
    refine ⟨δ + d, by positivity, ?_, b.unit ha ht hr'⟩
    funext i
    fin_cases i <;> simp [Row.finish, Row.dir, point, vector, hst, hconn] <;> ring
  set w := r.finish - F with hwd
  set w' := r'.finish - F with hwd'
  set R := norm4 w with hRd
  set R' := norm4 w' with hRd'
  have hσ2 : σ * σ = 1 := by rcases hσ with rfl | rfl <;> norm_num
  have hε2 : ε * ε = 1 := by rcases hε with rfl | rfl <;> norm_num
  set κ : ℝ := 1 + t * σ / R with hκ
  have hu' : r'.dir = (σ / R) • w := by
    rw [div_eq_inv_mul, mul_smul, ← hu, smul_smul, inv_mul_cancel₀ hR.ne', one_smul]
  have hw' : w' = κ • w := by
    rw [hwd', hfin, hu', smul_smul, hκ, add_smul, one_smul, hwd, mul_div_assoc]; abel
  have hR'e : R' = |κ| * R := by rw [hRd', hw', norm4_smul_abs]
  have htk : t = σ * (κ - 1) * R := by
    rw [hκ]; field_simp; linear_combination -t * hσ2
  have hlen : norm4 (r'.finish - r.finish) = t := by
    rw [hfin, add_sub_cancel_left, norm4_smul_abs, abs_of_pos ht0, norm4_eq_one.2 hu1, mul_one]
  have hew : dot4 e1 w = R - 2 * f1 := by linarith
  have hew' : dot4 e1 w' = κ * (R - 2 * f1) := by
    rw [← hew, hw']; simp [dot4]; ring
  have hrel : |κ| * R = ε * (κ * (R - 2 * f1)) + 2 * f2 := by
    rw [← hR'e, hon', ← hew', he]; simp [dot4]; ring
  have hd1 : dot4 r.dir w = σ * (R - 2 * f1) := by rw [← hew, hdir]; simp [dot4]; ring
  have hd2 : dot4 r.dir w' = σ * (κ * (R - 2 * f1)) := by rw [← hew', hdir]; simp [dot4]; ring
  have hk0 : κ ≠ 0 := by
    rintro h; rw [h] at hR'e; simp at hR'e; linarith
  -- the last direction
  have hlast : ∀ τ : ℝ, |κ| * σ = τ * κ → r''.dir = τ • e2 := by
    intro τ hτ
    refine (C115_mirror ha b ht hr' hr'' hf' hp' hm' τ).2 ?_
    rw [← hwd', ← hRd', hR'e, hu', hw', smul_smul, smul_smul, ← hτ]
    congr 1
    field_simp
  rcases lt_or_gt_of_ne (mul_ne_zero (show ε ≠ 0 by rcases hε with rfl | rfl <;> norm_num) hk0) with hneg | hpos
  · right
    have habs : |κ| = -(ε * κ) := by
      rcases hε with rfl | rfl
      · rw [one_mul] at hneg ⊢; exact abs_of_neg hneg
      · have : 0 < κ := by linarith
        rw [abs_of_pos this]; ring
    rw [habs] at hrel
    refine ⟨?_, ?_, ?_⟩
    · rw [hlast (-(ε * σ)) (by rw [habs]; ring), he, hdir, smul_smul, ← neg_smul]
      congr 1
      linear_combination -σ * hε2
    · have hpar : ∀ (p : Vec4), fromAxis F e1 p ^ 2 = norm4 (p - F) ^ 2 - dot4 e1 (p - F) ^ 2 := by
        intro p
        rw [fromAxis, norm4_sq, norm4_sq]
        have : dot4 (p - F - dot4 e1 (p - F) • e1) (p - F - dot4 e1 (p - F) • e1) = dot4 (p - F) (p - F) - 2 * dot4 e1 (p - F) * dot4 e1 (p - F) + dot4 e1 (p - F) ^ 2 * dot4 e1 e1 := by
          simp [dot4]; ring
        rw [this, hee]; ring
      have h1 := hpar r.finish
      have hax : fromAxis F e1 r'.finish = |κ| * fromAxis F e1 r.finish := by
        have e0 : dot4 e1 w' = κ * dot4 e1 w := by rw [hew', hew]
        rw [fromAxis, fromAxis, ← norm4_smul_abs, ← hwd, ← hwd', e0]
        congr 1
        rw [smul_sub, smul_smul, ← hw']
      rw [hax, mul_left_comm, ← pow_two, h1, ← hwd, ← hRd, hew, habs]
      linear_combination 2 * f1 * hrel
    · rw [hlen, hd1, hd2, htk]
      linear_combination (-σ * ε) * hrel - σ * κ * (2 * R - 2 * f1) * hε2
  · left
    have habs : |κ| = ε * κ := by
      rcases hε with rfl | rfl
      · rw [one_mul] at hpos ⊢; exact abs_of_pos hpos
      · have : κ < 0 := by linarith
        rw [abs_of_neg this]; ring
    rw [habs] at hrel
    refine ⟨?_, ?_, ?_⟩
    · rw [hlast (ε * σ) (by rw [habs]; ring), he, hdir, smul_smul]
      congr 1
      linear_combination σ * hε2
    · rw [hw']
      congr 1
      field_simp
      linear_combination (ε / 2) * hrel - κ * f1 * hε2
    · rw [hlen, hd1, hd2, htk]
      linear_combination (σ * ε) * hrel - 2 * σ * κ * f1 * hε2

end

/-! ### Example: a beam expander. A paraboloid of focal length 1 and height 10, and one of focal length 0.25 and height 0.5 moved by 0.75 so that the foci agree -/

/-- evaluates hits -/
macro "confocal_hits" : tactic => `(tactic| (
  simp only [Prim.intersect, paraboloidIntersect, clipHits, capHits, polyRoots, addMask, sort2, planeRay,
    point, vector, isclose0, Matrix.cons_val_zero, Matrix.cons_val_one, Matrix.cons_val, max_def, min_def, ge_iff_le, gt_iff_lt]
  norm_num only [if_true, if_false, ite_true, ite_false, EReal.coe_le_coe_iff, EReal.coe_lt_coe_iff, le_top, bot_le, top_le_iff, le_bot_iff, EReal.coe_ne_top, EReal.coe_ne_bot, bot_ne_top, top_ne_bot, and_true, true_and,
    and_false, false_and, not_true, not_false_iff, bot_lt_top, EReal.bot_lt_coe, EReal.coe_lt_top, not_top_lt, lt_self_iff_false, le_refl, ← EReal.coe_sub, ← EReal.coe_mul]))

noncomputable def dishes : Scene := pair (.paraboloid 1 10) (.paraboloid 0.25 0.5) (fun _ => .mirror)

/-- what is known of the scene after the second paraboloid has been moved -/
structure Expander (argsort : List EReal → List ℕ) (s : Scene) : Prop where
  mirrors : ∀ a, s.material a = .mirror
  placed : Placed argsort 1 s.heap
  size : s.heap.size = 2
  kind0 : (s.heap.obj 0).kind = .prim (.paraboloid 1 10)
  kind1 : (s.heap.obj 1).kind = .prim (.paraboloid 0.25 0.5)
  oid0 : (s.heap.obj 0).oid = 0
  oid1 : (s.heap.obj 1).oid = 1
  scale0 : (s.heap.obj 0).nscale = 1
  scale1 : (s.heap.obj 1).nscale = 1
  world0 : (s.heap.obj 0).world = 1
  world1 : (s.heap.obj 1).world = moveMatrix 0 0 0.75
  objT0 : (s.heap.obj 0).objT = 1
  objT1 : (s.heap.obj 1).objT = moveMatrix 0 0 (-0.75)

theorem expander_exists (argsort : List EReal → List ℕ) : ∃ h' : Heap, runMovements argsort 1 dishes.heap [(1, .move 0 0 0.75)] = (h', none) ∧
    Expander argsort { dishes with heap := h' } := by
  obtain ⟨⟨k0, t0, i0, n0⟩, ⟨k1, t1, i1, n1⟩, hsz⟩ := pair_obj (.paraboloid 1 10) (.paraboloid 0.25 0.5) (fun _ => Material.mirror)
  have hr : Reaches argsort 1 Heap.empty dishes.heap := pair_reaches argsort _ _ _ 1
  have hi := reaches_inv argsort empty_inv hr
  have w0 : (dishes.heap.obj 0).world = 1 := by simp [dishes, pair, newPrim, Heap.alloc, Heap.empty, Function.update]
  have w1 : (dishes.heap.obj 1).world = 1 := by simp [dishes, pair, newPrim, Heap.alloc, Heap.empty]
  have hsz' : dishes.heap.size = 2 := hsz
  have k0' : (dishes.heap.obj 0).kind = .prim (.paraboloid 1 10) := k0
  have k1' : (dishes.heap.obj 1).kind = .prim (.paraboloid 0.25 0.5) := k1
  obtain ⟨h', e, -⟩ := transform_succeeds argsort (rigid_good (move_rigid 0 0 0.75)) 1 1 hi
    (fun b hb => by rw [hsz'] at hb; interval_cases b <;> simp only [w0, w1] <;> exact goodWorld_one) (by omega) (by simp [Spec.fits, dishes, k1])
  have hcall : callMovement argsort 1 dishes.heap 1 (.move 0 0 0.75) = (h', none) := by
    simp only [callMovement, Movement.matrix, e]
  have hrun : runMovements argsort 1 dishes.heap [(1, .move 0 0 0.75)] = (h', none) := by
    simp only [runMovements, hcall]
    rfl
  obtain ⟨hi', hst, hw⟩ := runMovements_ok argsort _ hi (by simp [hsz']) hrun
  obtain ⟨s1, -, s3⟩ := hst
  have hw0 : (h'.obj 0).world = 1 := by
    rw [hw 0]; simp [worldAfter, Movement.matrix, visits, k1', w0]
  have hw1 : (h'.obj 1).world = moveMatrix 0 0 0.75 := by
    rw [hw 1]; simp [worldAfter, Movement.matrix, visits, k1', w1]
  have hsize : h'.size = 2 := s1.trans hsz
  refine ⟨h', hrun, ?_⟩
  exact {
    mirrors := fun _ => rfl
    placed := ReachesBy.placed argsort (.step (.movement 1 (.move 0 0 0.75)) (.step (.newPrim _) (.step (.newPrim _) (.refl _) trivial (fun _ _ h => by cases h) rfl)
      trivial (fun _ _ h => by cases h) rfl) (by show 1 < dishes.heap.size; omega) (fun a mv h => by cases h; exact fun m hm => by cases hm) hcall)
    size := hsize
    kind0 := (s3 0).1.trans k0
    kind1 := (s3 1).1.trans k1
    oid0 := (s3 0).2.1.trans i0
    oid1 := (s3 1).2.1.trans i1
    scale0 := (s3 0).2.2.1.trans n0
    scale1 := (s3 1).2.2.1.trans n1
    world0 := hw0
    world1 := hw1
    objT0 := by rw [(hi'.synced 0 (by omega)).2.1, hw0]; simp
    objT1 := by
      rw [(hi'.synced 1 (by omega)).2.1, hw1]
      refine Matrix.inv_eq_right_inv ?_
      ext i j; fin_cases i <;> fin_cases j <;> simp [moveMatrix, Matrix.mul_apply, Fin.sum_univ_four] }

section
variable {sc : Scene}

theorem expander_surfaces (x : Expander argsort sc) : surfaceIds 1 sc.heap 0 = [(0, 0)] ∧ surfaceIds 1 sc.heap 1 = [(1, 1)] := by
  constructor
  · rw [surfaceIds]; simp only [x.kind0, x.oid0]
  · rw [surfaceIds]; simp only [x.kind1, x.oid1]

theorem expander_bench (x : Expander argsort sc) {y z dy dz : ℝ} (hd : dy ^ 2 + dz ^ 2 = 1) :
    Bench argsort 1 sc [0, 1] 1 [fun _ => [plateCol y z dy dz 1 0]] 1 where
  history := x.placed
  exist a h := by
    rw [x.size]
    simp at h; omega
  distinct := by simp [expander_surfaces x]
  sized a h y id p hx hk := by
    simp only [List.mem_cons, List.not_mem_nil, or_false] at h
    rcases h with rfl | rfl
    · rw [(expander_surfaces x).1] at hx
      simp only [List.mem_singleton, Prod.mk.injEq] at hx
      obtain ⟨-, rfl⟩ := hx
      rw [x.kind0] at hk
      cases hk; simp [Sized]
    · rw [(expander_surfaces x).2] at hx
      simp only [List.mem_singleton, Prod.mk.injEq] at hx
      obtain ⟨-, rfl⟩ := hx
      rw [x.kind1] at hk
      cases hk; norm_num [Sized]
  emits f hf c hc := by
    simp only [List.mem_singleton] at hf
    subst hf
    simp only [List.mem_singleton] at hc
    subst hc
    exact ⟨by simp [plateCol], rfl, rfl, by simp [plateCol, planeRay, norm4, vector, hd]⟩
  positive f hf c hc := by
    simp only [List.mem_singleton] at hf
    subst hf
    simp only [List.mem_singleton] at hc
    subst hc
    refine ⟨by simp [plateCol], fun a _ y id g _ hg => ?_⟩
    rw [x.mirrors] at hg
    cases hg

/-- the nearest hit from the hits of both paraboloids -/
theorem expander_nearest (x : Expander argsort sc) {y z dy dz : ℝ} {a b a' b' : EReal} (h0 : (Prim.paraboloid 1 10).intersect (planeRay y z dy dz) = (a, b)) (hab : a ≤ b)
    (h1 : (Prim.paraboloid 0.25 0.5).intersect (planeRay y (z - 0.75) dy dz) = (a', b')) (hab' : a' ≤ b') {d : ℝ} (hd : 0 < d) (ha : 0 < a → (d : EReal) ≤ a)
    (hb : 0 < b → (d : EReal) ≤ b) (ha' : 0 < a' → (d : EReal) ≤ a') (hb' : 0 < b' → (d : EReal) ≤ b') :
    (a ≠ d → b = d → Nearest ([0, 1].map (sc.component argsort 1)) (planeRay y z dy dz) d 0) ∧
    (a ≠ d → b ≠ d → a' = d ∨ b' = d → Nearest ([0, 1].map (sc.component argsort 1)) (planeRay y z dy dz) d 1) := by
  set ray := planeRay y z dy dz with hray
  have m0 : ray.map (1 : Mat4) = ray := by simp [Ray.map]
  have m1 : ray.map (moveMatrix 0 0 (-0.75)) = planeRay y (z - 0.75) dy dz := by
    simp only [hray, Ray.map, planeRay, Ray.mk.injEq]
    constructor <;> funext i <;> fin_cases i <;> simp [moveMatrix, Matrix.mulVec, dotProduct, Fin.sum_univ_four, point, vector] <;> ring
  have e0 : (sc.component argsort 1 0).intersect ray = ([a, b], [0, 0]) := by
    show intersectObj argsort 1 sc.heap 0 ray = _
    simp only [intersectObj, x.kind0, leafIntersect, x.objT0, x.oid0, m0, h0, sort2, min_eq_left hab, max_eq_right hab]
    rfl
  have e1 : (sc.component argsort 1 1).intersect ray = ([a', b'], [1, 1]) := by
    show intersectObj argsort 1 sc.heap 1 ray = _
    simp only [intersectObj, x.kind1, leafIntersect, x.objT1, x.oid1, m1, h1, sort2, min_eq_left hab', max_eq_right hab']
    rfl
  have hmin : ∀ c ∈ [0, 1].map (sc.component argsort 1), ∀ h ∈ (c.intersect ray).1, 0 < h → (d : EReal) ≤ h := by
    intro c hc h hh hpos
    simp only [List.map_cons, List.map_nil, List.mem_cons, List.not_mem_nil, or_false] at hc
    rcases hc with rfl | rfl
    · rw [e0] at hh
      simp only [List.mem_cons, List.not_mem_nil, or_false] at hh
      rcases hh with rfl | rfl
      · exact ha hpos
      · exact hb hpos
    · rw [e1] at hh
      simp only [List.mem_cons, List.not_mem_nil, or_false] at hh
      rcases hh with rfl | rfl
      · exact ha' hpos
      · exact hb' hpos
  constructor
  · intro h hb2
    refine ⟨hd, hmin, 0, _, 1, rfl, fun j hj => by omega, by rw [e0, hb2]; rfl, fun j hj => ?_, by rw [e0]; rfl⟩
    obtain rfl : j = 0 := by omega
    rw [e0]
    simpa using h
  · intro hna hnb hor
    have hbefore : ∀ j < 1, ∀ c' : Component, ([0, 1].map (sc.component argsort 1))[j]? = some c' → (d : EReal) ∉ (c'.intersect ray).1 := by
      intro j hj c' hc'
      obtain rfl : j = 0 := by omega
      simp only [List.map_cons, List.getElem?_cons_zero, Option.some.injEq] at hc'
      subst hc'
      rw [e0]
      simp only [List.mem_cons, List.not_mem_nil, or_false, not_or]
      exact ⟨Ne.symm hna, Ne.symm hnb⟩
    by_cases h : a' = d
    · exact ⟨hd, hmin, 1, _, 0, rfl, hbefore, by rw [e1, h]; rfl, fun j hj => by omega, by rw [e1]; rfl⟩
    · have hb2 := hor.resolve_left h
      refine ⟨hd, hmin, 1, _, 1, rfl, hbefore, by rw [e1, hb2]; rfl, fun j hj => ?_, by rw [e1]; rfl⟩
      obtain rfl : j = 0 := by omega
      rw [e1]
      simpa using h

/-- a ray in the plane x = 0 that meets one of the mirrors -/
theorem expander_step (x : Expander argsort sc) {c0 : Col} {limit : ℤ} {y z dy dz d y' z' dy' dz' ny nz : ℝ} {g j : ℕ} (hj2 : j < 2)
    (hj : Journey (Tracer.new [fun _ => [c0]] ([0, 1].map (sc.component argsort 1)) 1 limit) c0 g (plateCol y z dy dz 1 g))
    (hd : dy ^ 2 + dz ^ 2 = 1) (hn : Nearest ([0, 1].map (sc.component argsort 1)) (planeRay y z dy dz) d j) (hy : y + d * dy = y') (hz : z + d * dz = z')
    (hN : surfaceNormal sc.heap j (point 0 y' z') = vector 0 ny nz) (h1 : dy' = dy - 2 * (dy * ny + dz * nz) * ny) (h2 : dz' = dz - 2 * (dy * ny + dz * nz) * nz) :
    Journey (Tracer.new [fun _ => [c0]] ([0, 1].map (sc.component argsort 1)) 1 limit) c0 (g + 1)
      (plateCol (y' + 1e-6 * dy') (z' + 1e-6 * dz') dy' dz' 1 (g + 1)) := by
  have h := hj.next (not_extinct_of_unit (by simp [plateCol, planeRay, norm4, vector, hd])) hn
    (f := fun c => (sc.material j).trace (surfaceNormal sc.heap j) c)
    (by simp [Tracer.new, Scene.component, expander_surfaces x]; interval_cases j <;> simp)
  rw [moved_plateCol, hy, hz] at h
  simp only [x.mirrors] at h
  have hm : { Material.mirror.trace (surfaceNormal sc.heap j) (plateCol y' z' dy dz 1 g) with generation := (g : ℝ) + 1 } = plateCol y' z' dy' dz' 1 (g + 1) := by
    have e : (plateCol y' z' dy dz 1 g).ray.o = point 0 y' z' := rfl
    simp only [Material.trace, e]
    rw [hN]
    simp only [plateCol, planeRay, Nat.cast_add, Nat.cast_one, Col.mk.injEq, Ray.mk.injEq, and_true, true_and]
    funext i; fin_cases i <;> simp [dot4, vector, h1, h2] <;> ring
  rw [hm, moved_plateCol] at h
  exact h

/-- a column of a journey and its nearest hit give a row -/
theorem expander_row (x : Expander argsort sc) {y0 z0 dy0 dz0 y z dy dz d : ℝ} {g k : ℕ} {t' : Tracer} {sf : ℤ}
    (ha : IsArgsort argsort) (h0 : dy0 ^ 2 + dz0 ^ 2 = 1)
    (h : Tracer.Traces k (Tracer.new [fun _ => [plateCol y0 z0 dy0 dz0 1 0]] ([0, 1].map (sc.component argsort 1)) 1 3) t')
    (hj : Journey (Tracer.new [fun _ => [plateCol y0 z0 dy0 dz0 1 0]] ([0, 1].map (sc.component argsort 1)) 1 3) (plateCol y0 z0 dy0 dz0 1 0) g
      (plateCol y z dy dz 1 g))
    (hd : dy ^ 2 + dz ^ 2 = 1) (hn : Nearest ([0, 1].map (sc.component argsort 1)) (planeRay y z dy dz) d sf) (hg : g < 3) :
    ∃ r ∈ t'.frame, r.id = 0 ∧ r.generation = g ∧ r.surface = sf ∧ r.dir = vector 0 dy dz ∧ r.finish = point 0 (y + d * dy) (z + d * dz) := by
  obtain ⟨r, hr⟩ := segment_exists (plateCol y z dy dz 1 g) d sf
  refine ⟨r, (trace_iff ((expander_bench x h0).ok ha 3) h r).2 ⟨0, g, fun _ => ?_, _, _, _, _, ⟨plateCol y0 z0 dy0 dz0 1 0, rfl, by simp [plateCol]⟩, hj,
    not_extinct_of_unit (by simp [plateCol, planeRay, norm4, vector, hd]), hn, hr⟩, hr.id, hr.generation, hr.surface, ?_, ?_⟩
  · show (g : ℤ) < 3
    exact_mod_cast hg
  · have e : √(dy ^ 2 + dz ^ 2) = 1 := by rw [hd, Real.sqrt_one]
    funext i
    fin_cases i <;> simp only [Row.dir, vector, hr.tilt] <;> simp [plateCol, planeRay, vector, e]
  · funext i
    fin_cases i <;> simp only [Row.finish, point, hr.stop] <;> simp [plateCol, planeRay, vector, point]

/-- a place of the big mirror -/
theorem expander_big (x : Expander argsort sc) {r : Row} {y z : ℝ} (hr : r.surface = 0) (hf : r.finish = point 0 y z) (hz : z = y ^ 2 / 4) (h9 : z ≤ 9) :
    EndsOnParaboloid sc [0, 1] 1 (point 0 0 1) (vector 0 0 1) 1 0 r := by
  refine ⟨0, by simp, 0, 10, by simp [expander_surfaces x], by simpa using hr, x.kind0, ?_, ?_, ?_, ?_, ?_⟩
  · rw [x.world0]; exact ⟨row_one, fun v _ => by rw [one_mulVec]⟩
  · rw [x.world0, one_mulVec]
  · rw [x.world0, one_mulVec]
  · rw [hf]
    have : norm4 (point 0 y z - point 0 0 1) = √((z + 1) ^ 2) := by
      unfold norm4
      congr 1
      simp [point, hz]; ring
    rw [this, Real.sqrt_sq (by rw [hz]; positivity)]
    simp [dot4, vector, point]; ring
  · rw [hf]
    have e : dot4 (vector 0 0 1) (point 0 y z - point 0 0 1) + 1 = z := by simp [dot4, vector, point]
    rw [e]
    intro h
    unfold isclose at h
    rw [abs_of_nonpos (by linarith)] at h
    norm_num at h
    linarith

/-- a place of the small mirror -/
theorem expander_small (x : Expander argsort sc) {r : Row} {y z : ℝ} (hr : r.surface = 1) (hf : r.finish = point 0 y z) (hz : z = y ^ 2 + 0.75) (h9 : z ≤ 1.2) :
    EndsOnParaboloid sc [0, 1] 1 (point 0 0 1) (vector 0 0 1) 0.25 1 r := by
  refine ⟨1, by simp, 1, 0.5, by simp [expander_surfaces x], by simpa using hr, x.kind1, ?_, ?_, ?_, ?_, ?_⟩
  · rw [x.world1]; exact isometry_of_rigid (move_rigid 0 0 0.75)
  · rw [x.world1]; funext i; fin_cases i <;> simp [moveMatrix, Matrix.mulVec, dotProduct, Fin.sum_univ_four, point] <;> norm_num
  · rw [x.world1]; funext i; fin_cases i <;> simp [moveMatrix, Matrix.mulVec, dotProduct, Fin.sum_univ_four, vector]
  · rw [hf]
    have : norm4 (point 0 y z - point 0 0 1) = √((z - 0.5) ^ 2) := by
      unfold norm4
      congr 1
      simp [point, hz]; ring
    rw [this, Real.sqrt_sq (by rw [hz]; nlinarith [sq_nonneg y])]
    simp [dot4, vector, point]; ring
  · rw [hf]
    have e : dot4 (vector 0 0 1) (point 0 y z - point 0 0 1) + 0.25 = z - 0.75 := by simp [dot4, vector, point]; ring
    rw [e]
    intro h
    unfold isclose at h
    rw [abs_of_nonpos (by norm_num at h9 ⊢; linarith)] at h
    norm_num at h h9
    linarith

theorem expander_normal_big (x : Expander argsort sc) {y z ny nz : ℝ} {c : ℝ} (hz : z ≤ 9) (hc : 0 < c) (hn : ny ^ 2 + nz ^ 2 = 1) (h1 : y = c * ny) (h2 : -2 = c * nz) :
    surfaceNormal sc.heap 0 (point 0 y z) = vector 0 ny nz := by
  have hnot : ¬ isclose z 10 := by
    intro h
    unfold isclose at h
    rw [abs_of_nonpos (by linarith)] at h
    norm_num at h
    linarith
  have hs : √(y ^ 2 + 2 ^ 2) = c := by
    rw [show y ^ 2 + 2 ^ 2 = c ^ 2 by rw [h1, show (2 : ℝ) = -(c * nz) by linarith]; linear_combination c ^ 2 * hn, Real.sqrt_sq hc.le]
  simp only [surfaceNormal, x.kind0, worldNormal, x.objT0, x.scale0, one_smul, Matrix.transpose_one, Matrix.one_mulVec]
  have e1 : Prim.normal (.paraboloid 1 10) (point 0 y z) = vector 0 ny nz := by
    have e : (point 0 y z) 2 = z := rfl
    rw [Prim.normal, e, if_neg hnot]
    funext i
    fin_cases i
    · simp [normalize, point, vector]
    · simp [normalize, point, vector, norm4, hs]; rw [h1]; field_simp
    · simp [normalize, point, vector, norm4, hs]; field_simp; linarith
    · simp [normalize, vector]
  rw [e1]
  funext i
  fin_cases i <;> simp [normalize, zeroW, vector, norm4, hn]

theorem expander_normal_small (x : Expander argsort sc) {y z ny nz : ℝ} {c : ℝ} (hz : z ≤ 1.2) (hc : 0 < c) (hn : ny ^ 2 + nz ^ 2 = 1) (h1 : y = c * ny) (h2 : -0.5 = c * nz) :
    surfaceNormal sc.heap 1 (point 0 y z) = vector 0 ny nz := by
  have hnot : ¬ isclose (z - 0.75) 0.5 := by
    intro h
    unfold isclose at h
    rw [abs_of_nonpos (by norm_num at hz ⊢; linarith)] at h
    norm_num at h hz
    linarith
  have hs : √(y ^ 2 + (2 * 0.25) ^ 2) = c := by
    rw [show y ^ 2 + (2 * 0.25) ^ 2 = c ^ 2 by rw [h1, show (2 * 0.25 : ℝ) = -(c * nz) by linarith]; linear_combination c ^ 2 * hn, Real.sqrt_sq hc.le]
  have hp : moveMatrix 0 0 (-0.75) *ᵥ point 0 y z = point 0 y (z - 0.75) := by
    funext i; fin_cases i <;> simp [moveMatrix, Matrix.mulVec, dotProduct, Fin.sum_univ_four, point]; ring
  have hT : ∀ v : Vec4, zeroW ((moveMatrix 0 0 (-0.75))ᵀ *ᵥ v) = zeroW v := by
    intro v
    funext i; fin_cases i <;> simp [moveMatrix, Matrix.mulVec, dotProduct, Fin.sum_univ_four, zeroW, Matrix.transpose]
  simp only [surfaceNormal, x.kind1, worldNormal, x.objT1, x.scale1, one_smul, hp, hT]
  have e1 : Prim.normal (.paraboloid 0.25 0.5) (point 0 y (z - 0.75)) = vector 0 ny nz := by
    have e : (point 0 y (z - 0.75)) 2 = z - 0.75 := rfl
    rw [Prim.normal, e, if_neg hnot]
    funext i
    fin_cases i
    · simp [normalize, point, vector]
    · simp [normalize, point, vector, norm4, hs]; rw [h1]; field_simp
    · simp [normalize, point, vector, norm4, hs]; field_simp; norm_num at h2 ⊢; linarith
    · simp [normalize, vector]
  rw [e1]
  funext i
  fin_cases i <;> simp [normalize, zeroW, vector, norm4, hn]

theorem turned_value {t c a b p q u : ℝ} (hs : c * c = t) : 2 * (a * (p / c) + b * (q / c)) * (u / c) = 2 * (a * p + b * q) * u / t := by
  rw [← hs]; ring

theorem neg_hit {a d : ℝ} (h : a ≤ 0) : 0 < (a : EReal) → (d : EReal) ≤ (a : EReal) := by
  intro hp
  have : 0 < a := by exact_mod_cast hp
  linarith

theorem far_hit {a d : ℝ} (h : d ≤ a) : 0 < (a : EReal) → (d : EReal) ≤ (a : EReal) := fun _ => EReal.coe_le_coe_iff.2 h

theorem hit_ne {a d : ℝ} (h : a ≠ d) : (a : EReal) ≠ (d : EReal) := fun e => h (EReal.coe_eq_coe_iff.1 e)

end

/-- non-vacuity of `C115_confocal`, first alternative: a ray going up at 0.6 from the axis hits the small mirror from outside, then the big one, and leaves at 2.4 from the axis -/
example (ha : IsArgsort argsort) : ∃ (h' : Heap) (k : ℕ) (t' : Tracer) (r r' r'' : Row), runMovements argsort 1 dishes.heap [(1, .move 0 0 0.75)] = (h', none) ∧
    Tracer.Traces k (Tracer.new [fun _ => [plateCol 0.6 0.1 0 1 1 0]] ([0, 1].map (({ dishes with heap := h' } : Scene).component argsort 1)) 1 3) t' ∧
    r ∈ t'.frame ∧ r' ∈ t'.frame ∧ r'' ∈ t'.frame ∧ r.dir = vector 0 0 1 ∧ r''.dir = r.dir ∧ r.finish = point 0 0.6 1.11 ∧
    r'.finish - point 0 0 1 = (4 : ℝ) • (r.finish - point 0 0 1) := by
  obtain ⟨h', hrun, x⟩ := expander_exists argsort
  refine ⟨h', ?_⟩
  set sc : Scene := { dishes with heap := h' } with hsc
  have b : Bench argsort 1 sc [0, 1] 1 [fun _ => [plateCol 0.6 0.1 0 1 1 0]] 1 := expander_bench x (by norm_num)
  have ok := b.ok ha 3
  obtain ⟨k, t', h, -⟩ := C26_terminates (Tracer.new [fun _ => [plateCol 0.6 0.1 0 1 1 0]] ([0, 1].map (sc.component argsort 1)) 1 3)
    (by simp [Tracer.new]) (by simp [Tracer.new]) (fun s hs c hc => (ok.emits s hs c hc).1)
  have hq : √0.61 * √0.61 = 0.61 := Real.mul_self_sqrt (by norm_num)
  have hq0 : 0 < √0.61 := Real.sqrt_pos.2 (by norm_num)
  have n0 : Nearest ([0, 1].map (sc.component argsort 1)) (planeRay 0.6 0.1 0 1) 1.01 1 :=
    (expander_nearest x (a := ((-0.01 : ℝ) : EReal)) (b := ((9.9 : ℝ) : EReal)) (by confocal_hits) (EReal.coe_le_coe_iff.2 (by norm_num))
      (a' := ((1.01 : ℝ) : EReal)) (b' := ((1.15 : ℝ) : EReal)) (by confocal_hits) (EReal.coe_le_coe_iff.2 (by norm_num)) (by norm_num)
      (neg_hit (by norm_num)) (far_hit (by norm_num)) (far_hit (by norm_num)) (far_hit (by norm_num))).2 (hit_ne (by norm_num)) (hit_ne (by norm_num)) (Or.inl rfl)
  have j1 := expander_step x (limit := 3) (j := 1) (by norm_num)
    (Journey.start (t := Tracer.new [fun _ => [plateCol 0.6 0.1 0 1 1 0]] ([0, 1].map (sc.component argsort 1)) 1 3)
    (c0 := plateCol 0.6 0.1 0 1 1 0)) (by norm_num) n0 (y' := 0.6) (z' := 1.11) (dy' := 60 / 61) (dz' := 11 / 61) (by norm_num) (by norm_num)
    (expander_normal_small x (ny := 0.6 / √0.61) (nz := -0.5 / √0.61) (c := √0.61) (by norm_num) hq0 (by
      rw [div_pow, div_pow, pow_two (√0.61), hq]; norm_num) (by field_simp) (by field_simp))
    (by rw [zero_mul, zero_add, one_mul, zero_sub, mul_assoc, div_mul_div_comm, hq]; norm_num)
    (by rw [zero_mul, zero_add, one_mul, mul_assoc, div_mul_div_comm, hq]; norm_num)
  have n1 : Nearest ([0, 1].map (sc.component argsort 1)) (planeRay (0.6 + 1e-6 * (60 / 61)) (1.11 + 1e-6 * (11 / 61)) (60 / 61) (11 / 61)) (1.83 - 1e-6) 0 :=
    (expander_nearest x (a := ((-(4.08 * 3721 / 3600 / 1.83) - 1e-6 : ℝ) : EReal)) (b := ((1.83 - 1e-6 : ℝ) : EReal)) (by confocal_hits) (EReal.coe_le_coe_iff.2 (by norm_num))
      (a' := ((-3721 / 3600 - 1e-6 : ℝ) : EReal)) (b' := ((-1e-6 : ℝ) : EReal)) (by confocal_hits) (EReal.coe_le_coe_iff.2 (by norm_num)) (by norm_num)
      (neg_hit (by norm_num)) (far_hit (by norm_num)) (neg_hit (by norm_num)) (neg_hit (by norm_num))).1 (hit_ne (by norm_num)) rfl
  have j2 := expander_step x (j := 0) (by norm_num) j1 (by norm_num) n1 (y' := 2.4) (z' := 1.44) (dy' := 0) (dz' := 1) (by norm_num) (by norm_num)
    (expander_normal_big x (ny := 0.6 / √0.61) (nz := -0.5 / √0.61) (c := 4 * √0.61) (by norm_num) (by positivity) (by
      rw [div_pow, div_pow, pow_two (√0.61), hq]; norm_num) (by field_simp; norm_num) (by field_simp; norm_num))
    (by rw [turned_value hq]; norm_num)
    (by rw [turned_value hq]; norm_num)
  have n2 : Nearest ([0, 1].map (sc.component argsort 1)) (planeRay (2.4 + 1e-6 * 0) (1.44 + 1e-6 * 1) 0 1) (8.56 - 1e-6) 0 :=
    (expander_nearest x (a := ((-1e-6 : ℝ) : EReal)) (b := ((8.56 - 1e-6 : ℝ) : EReal)) (by confocal_hits) (EReal.coe_le_coe_iff.2 (by norm_num))
      (a' := ⊤) (b' := ⊤) (by confocal_hits) le_rfl (by norm_num)
      (neg_hit (by norm_num)) (far_hit (by norm_num)) (fun _ => le_top) (fun _ => le_top)).1 (hit_ne (by norm_num)) rfl
  obtain ⟨r, hr, a1, a2, a3, a4, a5⟩ := expander_row x ha (by norm_num) h .start (by norm_num) n0 (by norm_num)
  obtain ⟨r', hr', b1, b2, b3, b4, b5⟩ := expander_row x ha (by norm_num) h j1 (by norm_num) n1 (by norm_num)
  obtain ⟨r'', hr'', c1, c2, c3, c4, -⟩ := expander_row x ha (by norm_num) h j2 (by norm_num) n2 (by norm_num)
  have p1 : r.finish = point 0 0.6 1.11 := by rw [a5]; norm_num
  have p2 : r'.finish = point 0 2.4 1.44 := by rw [b5]; norm_num
  refine ⟨k, t', r, r', r'', hrun, h, hr, hr', hr'', a4, ?_⟩
  rcases C115_confocal ha b h hr hr' hr'' ⟨by rw [a1, b1], by rw [a2, b2]; push_cast; ring⟩ ⟨by rw [b1, c1], by rw [b2, c2]; push_cast; ring⟩
    (expander_small x (by exact_mod_cast a3) p1 (by norm_num) (by norm_num)) (expander_big x b3 p2 (by norm_num) (by norm_num)) (x.mirrors 1) (x.mirrors 0)
    (ε := 1) (σ := 1) (Or.inl rfl) (by rw [one_smul]) (Or.inl rfl) (by rw [one_smul, a4]) with ⟨e1, e2, -⟩ | ⟨e1, -⟩
  · refine ⟨e1, p1, ?_⟩
    rw [e2]; norm_num
  · exfalso
    have := congrFun e1 2
    rw [c4, a4] at this
    simp [vector] at this
    norm_num at this

/-- non-vacuity of `C115_confocal`, second alternative: a ray going down at 0.6 from the axis is reflected twice in the small mirror, through the focus, and goes back up at 5/12 on the
other side of the axis -/
example (ha : IsArgsort argsort) : ∃ (h' : Heap) (k : ℕ) (t' : Tracer) (r r' r'' : Row), runMovements argsort 1 dishes.heap [(1, .move 0 0 0.75)] = (h', none) ∧
    Tracer.Traces k (Tracer.new [fun _ => [plateCol 0.6 1.2 0 (-1) 1 0]] ([0, 1].map (({ dishes with heap := h' } : Scene).component argsort 1)) 1 3) t' ∧
    r ∈ t'.frame ∧ r' ∈ t'.frame ∧ r'' ∈ t'.frame ∧ r.dir = vector 0 0 (-1) ∧ r''.dir = -r.dir ∧ r.finish = point 0 0.6 1.11 ∧
    r'.finish = point 0 (-5 / 12) (0.75 + 25 / 144) ∧
    fromAxis (point 0 0 1) (vector 0 0 1) r.finish * fromAxis (point 0 0 1) (vector 0 0 1) r'.finish = 4 * 0.25 * 0.25 := by
  obtain ⟨h', hrun, x⟩ := expander_exists argsort
  refine ⟨h', ?_⟩
  set sc : Scene := { dishes with heap := h' } with hsc
  have b : Bench argsort 1 sc [0, 1] 1 [fun _ => [plateCol 0.6 1.2 0 (-1) 1 0]] 1 := expander_bench x (by norm_num)
  have ok := b.ok ha 3
  obtain ⟨k, t', h, -⟩ := C26_terminates (Tracer.new [fun _ => [plateCol 0.6 1.2 0 (-1) 1 0]] ([0, 1].map (sc.component argsort 1)) 1 3)
    (by simp [Tracer.new]) (by simp [Tracer.new]) (fun s hs c hc => (ok.emits s hs c hc).1)
  have hq : √0.61 * √0.61 = 0.61 := Real.mul_self_sqrt (by norm_num)
  have hq0 : 0 < √0.61 := Real.sqrt_pos.2 (by norm_num)
  have n0 : Nearest ([0, 1].map (sc.component argsort 1)) (planeRay 0.6 1.2 0 (-1)) 0.09 1 :=
    (expander_nearest x (a := ((-8.8 : ℝ) : EReal)) (b := ((1.11 : ℝ) : EReal)) (by confocal_hits) (EReal.coe_le_coe_iff.2 (by norm_num))
      (a' := ((-0.05 : ℝ) : EReal)) (b' := ((0.09 : ℝ) : EReal)) (by confocal_hits) (EReal.coe_le_coe_iff.2 (by norm_num)) (by norm_num)
      (neg_hit (by norm_num)) (far_hit (by norm_num)) (neg_hit (by norm_num)) (far_hit (by norm_num))).2 (hit_ne (by norm_num)) (hit_ne (by norm_num)) (Or.inr rfl)
  have j1 := expander_step x (limit := 3) (j := 1) (by norm_num)
    (Journey.start (t := Tracer.new [fun _ => [plateCol 0.6 1.2 0 (-1) 1 0]] ([0, 1].map (sc.component argsort 1)) 1 3)
    (c0 := plateCol 0.6 1.2 0 (-1) 1 0)) (by norm_num) n0 (y' := 0.6) (z' := 1.11) (dy' := -60 / 61) (dz' := -11 / 61) (by norm_num) (by norm_num)
    (expander_normal_small x (ny := 0.6 / √0.61) (nz := -0.5 / √0.61) (c := √0.61) (by norm_num) hq0 (by
      rw [div_pow, div_pow, pow_two (√0.61), hq]; norm_num) (by field_simp) (by field_simp))
    (by rw [turned_value hq]; norm_num)
    (by rw [turned_value hq]; norm_num)
  have n1 : Nearest ([0, 1].map (sc.component argsort 1)) (planeRay (0.6 + 1e-6 * (-60 / 61)) (1.11 + 1e-6 * (-11 / 61)) (-60 / 61) (-11 / 61)) (37.21 / 36 - 1e-6) 1 :=
    (expander_nearest x (a := ((-1.83 - 1e-6 : ℝ) : EReal)) (b := ((4.08 * 3721 / 3600 / 1.83 - 1e-6 : ℝ) : EReal)) (by confocal_hits) (EReal.coe_le_coe_iff.2 (by norm_num))
      (a' := ((-1e-6 : ℝ) : EReal)) (b' := ((37.21 / 36 - 1e-6 : ℝ) : EReal)) (by confocal_hits) (EReal.coe_le_coe_iff.2 (by norm_num)) (by norm_num)
      (neg_hit (by norm_num)) (far_hit (by norm_num)) (neg_hit (by norm_num)) (far_hit (by norm_num))).2 (hit_ne (by norm_num)) (hit_ne (by norm_num)) (Or.inr rfl)
  have j2 := expander_step x (j := 1) (by norm_num) j1 (by norm_num) n1 (y' := -5 / 12) (z' := 0.75 + 25 / 144) (dy' := 0) (dz' := 1) (by norm_num) (by norm_num)
    (expander_normal_small x (ny := -0.5 / √0.61) (nz := -0.6 / √0.61) (c := √0.61 * 5 / 6) (by norm_num) (by positivity) (by
      rw [div_pow, div_pow, pow_two (√0.61), hq]; norm_num) (by field_simp; norm_num) (by field_simp; norm_num))
    (by rw [turned_value hq]; norm_num)
    (by rw [turned_value hq]; norm_num)
  have n2 : Nearest ([0, 1].map (sc.component argsort 1)) (planeRay (-5 / 12 + 1e-6 * 0) (0.75 + 25 / 144 + 1e-6 * 1) 0 1) (0.5 - 25 / 144 - 1e-6) 1 :=
    (expander_nearest x (a := ((25 / 576 - 0.75 - 25 / 144 - 1e-6 : ℝ) : EReal)) (b := ((9.25 - 25 / 144 - 1e-6 : ℝ) : EReal)) (by confocal_hits) (EReal.coe_le_coe_iff.2 (by norm_num))
      (a' := ((-1e-6 : ℝ) : EReal)) (b' := ((0.5 - 25 / 144 - 1e-6 : ℝ) : EReal)) (by confocal_hits) (EReal.coe_le_coe_iff.2 (by norm_num)) (by norm_num)
      (neg_hit (by norm_num)) (far_hit (by norm_num)) (neg_hit (by norm_num)) (far_hit (by norm_num))).2 (hit_ne (by norm_num)) (hit_ne (by norm_num)) (Or.inr rfl)
  obtain ⟨r, hr, a1, a2, a3, a4, a5⟩ := expander_row x ha (by norm_num) h .start (by norm_num) n0 (by norm_num)
  obtain ⟨r', hr', b1, b2, b3, b4, b5⟩ := expander_row x ha (by norm_num) h j1 (by norm_num) n1 (by norm_num)
  obtain ⟨r'', hr'', c1, c2, c3, c4, -⟩ := expander_row x ha (by norm_num) h j2 (by norm_num) n2 (by norm_num)
  have p1 : r.finish = point 0 0.6 1.11 := by rw [a5]; norm_num
  have p2 : r'.finish = point 0 (-5 / 12) (0.75 + 25 / 144) := by rw [b5]; norm_num
  refine ⟨k, t', r, r', r'', hrun, h, hr, hr', hr'', a4, ?_⟩
  rcases C115_confocal ha b h hr hr' hr'' ⟨by rw [a1, b1], by rw [a2, b2]; push_cast; ring⟩ ⟨by rw [b1, c1], by rw [b2, c2]; push_cast; ring⟩
    (expander_small x (by exact_mod_cast a3) p1 (by norm_num) (by norm_num)) (expander_small x (by exact_mod_cast b3) p2 (by norm_num) (by norm_num)) (x.mirrors 1) (x.mirrors 1)
    (ε := 1) (σ := -1) (Or.inl rfl) (by rw [one_smul]) (Or.inr rfl) (by rw [a4]; funext i; fin_cases i <;> simp [vector]) with ⟨e1, -⟩ | ⟨e1, e2, -⟩
  · exfalso
    have := congrFun e1 2
    rw [c4, a4] at this
    simp [vector] at this
    norm_num at this
  · exact ⟨e1, p1, p2, e2⟩

end PyRayT
