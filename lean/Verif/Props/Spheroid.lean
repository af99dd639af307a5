import Verif.Props.Aplanatic
import Verif.Props.Confocal
import Verif.Props.LightGuide
import Mathlib.Tactic.NormNum.RealSqrt

/-!
# Property C116: spheroids (scaled spheres) as mirrors and lenses

A sphere scaled by different factors along and across an axis is a spheroid. Its hits come from the ray taken back into the object's own space, where its direction is no longer of
length one; its normals from the transposed inverse of the transform. If one of the two were wrong, the spheroid would not image its foci.
-/

namespace PyRayT

open Classical Matrix Spec

variable {argsort : List EReal → List ℕ} {fuel : ℕ} {s : Scene} {objs : List ℕ} {depth : ℕ}

/-! ### specification -/

/-- The quadratic form of the spheroid with the half axes `A` across and `C` along the unit vector `e`: it is 1 for the vectors from the centre to the places of the spheroid. -/
noncomputable def Spec.spheroid (A C : ℝ) (e w : Vec4) : ℝ := (dot4 w w - dot4 e w ^ 2) / A ^ 2 + dot4 e w ^ 2 / C ^ 2

/-- the surface named by a row is a sphere that has been scaled, turned and moved to become a spheroid with centre `c`, axis `e` and half axes `A` (across) and `C` (along) -/
def Spec.EndsOnSpheroid (s : Scene) (objs : List ℕ) (depth : ℕ) (c e : Vec4) (A C : ℝ) (x : ℕ) (r : Row) : Prop :=
  ∃ a ∈ objs, ∃ (id : ℕ) (ρ : ℝ), (id, x) ∈ surfaceIds depth s.heap a ∧ r.surface = (id : ℤ) ∧ (s.heap.obj x).kind = .prim (.sphere ρ) ∧
    (s.heap.obj x).world *ᵥ point 0 0 0 = c ∧ ∀ v : Vec4, v 3 = 0 → spheroid A C e ((s.heap.obj x).world *ᵥ v) * ρ ^ 2 = dot4 v v

/-! ### proofs -/

/-- the polar form -/
theorem spheroid_polar {A C ρ : ℝ} {e : Vec4} {w : Mat4} (hq : ∀ v : Vec4, v 3 = 0 → spheroid A C e (w *ᵥ v) * ρ ^ 2 = dot4 v v) {u v : Vec4} (hu : u 3 = 0)
    (hv : v 3 = 0) :
    ((dot4 (w *ᵥ u) (w *ᵥ v) - dot4 e (w *ᵥ u) * dot4 e (w *ᵥ v)) / A ^ 2 + dot4 e (w *ᵥ u) * dot4 e (w *ᵥ v) / C ^ 2) * ρ ^ 2 = dot4 u v := by
  have h := hq (u + v) (by simp [hu, hv])
  have h1 := hq u hu
  have h2 := hq v hv
  rw [mulVec_add] at h
  unfold spheroid at h h1 h2
  have e1 : ∀ x y : Vec4, dot4 (x + y) (x + y) = dot4 x x + 2 * dot4 x y + dot4 y y := by
    intro x y; simp only [dot4, Pi.add_apply]; ring
  have e2 : ∀ x y : Vec4, dot4 e (x + y) = dot4 e x + dot4 e y := by
    intro x y; simp only [dot4, Pi.add_apply]; ring
  rw [e1, e1, e2] at h
  linear_combination h / 2 - h1 / 2 - h2 / 2

section
variable {sources : List (ℕ → List Col)} {m : ℕ} {limit : ℤ} {k : ℕ} {f : Tracer}

/-- a row that names a spheroid ends on it -/
theorem finish_on_spheroid (ha : IsArgsort argsort) (b : Bench argsort fuel s objs depth sources m)
    (ht : Tracer.Traces k (Tracer.new sources (objs.map (s.component argsort depth)) m limit) f) {c e : Vec4} {A C : ℝ} {x : ℕ} {r : Row}
    (hr : r ∈ f.frame) (h : EndsOnSpheroid s objs depth c e A C x r) (hA : A ≠ 0) (hC : C ≠ 0) (he3 : e 3 = 0) :
    spheroid A C e (r.finish - c) = 1 ∧
      ∃ μ : ℝ, surfaceNormal s.heap x r.finish = μ • (C ^ 2 • (r.finish - c) - ((C ^ 2 - A ^ 2) * dot4 e (r.finish - c)) • e) := by
  obtain ⟨a, haa, id, ρ, hx, hs, hk, hc, hq⟩ := h
  have hρ : ρ ≠ 0 := b.sized a haa x id _ hx hk
  have hinv := reaches_inv argsort empty_inv b.history.reaches
  obtain ⟨hxs, -, -⟩ := surfaceIds_spec hinv depth a (b.exist a haa) _ hx
  have ho := (hinv.synced x hxs).2.1
  have haff := b.history.affine argsort hxs
  have hthree := affine_three haff
  have hdet := haff.2
  have hmi : ∀ v : Vec4, (s.heap.obj x).world *ᵥ ((s.heap.obj x).world⁻¹ *ᵥ v) = v := fun v => by
    rw [mulVec_mulVec, mul_nonsing_inv _ (isUnit_iff_ne_zero.2 hdet), one_mulVec]
  have him : ∀ v : Vec4, (s.heap.obj x).world⁻¹ *ᵥ ((s.heap.obj x).world *ᵥ v) = v := fun v => by
    rw [mulVec_mulVec, nonsing_inv_mul _ (isUnit_iff_ne_zero.2 hdet), one_mulVec]
  have hi3 : ∀ v : Vec4, ((s.heap.obj x).world⁻¹ *ᵥ v) 3 = v 3 := fun v => by rw [← hthree ((s.heap.obj x).world⁻¹ *ᵥ v), hmi]
  have hc3 : c 3 = 1 := by rw [← hc, hthree]; rfl
  have hp3 : (r.finish - c) 3 = 0 := by simp [hc3, Row.finish, point]
  set W := (s.heap.obj x).world with hW
  set l := W⁻¹ *ᵥ (r.finish - c) with hl
  have hl3 : l 3 = 0 := by rw [hl, hi3, hp3]
  have hWl : W *ᵥ l = r.finish - c := by rw [hl, hmi]
  have el : (s.heap.obj x).objT *ᵥ r.finish = point 0 0 0 + l := by
    rw [ho, hl, mulVec_sub, ← hc, him]; abel
  have hon : dot4 l l = ρ ^ 2 := by
    obtain ⟨d, hd0, hn, hat⟩ := row_arrives (b.ok ha limit) ht hr
    obtain ⟨a', haa', x', id', hx', hid', hmem⟩ := C25_surface argsort ha s objs depth _ d _ hn
    have e := b.same haa haa' hx hx' (by exact_mod_cast hs.symm.trans hid')
    subst e
    simp only [intersectObj, hk, leafIntersect, Prim.intersect] at hmem
    have hdir3 : (rowRay r).d 3 = 0 := by simp [rowRay, vector]
    have hunit := b.unit ha ht hr
    have hne : ((rowRay r).map (s.heap.obj x).objT).d 0 ≠ 0 ∨ ((rowRay r).map (s.heap.obj x).objT).d 1 ≠ 0 ∨
        ((rowRay r).map (s.heap.obj x).objT).d 2 ≠ 0 := by
      by_contra hz
      push Not at hz
      obtain ⟨z0, z1, z2⟩ := hz
      simp only [Ray.map, ho] at z0 z1 z2
      have : W⁻¹ *ᵥ (rowRay r).d = 0 := by
        funext i; fin_cases i
        exacts [z0, z1, z2, by simpa [hdir3] using hi3 (rowRay r).d]
      have h2 := hmi (rowRay r).d
      rw [this, mulVec_zero] at h2
      have h3 : r.dir = 0 := by rw [h2]; rfl
      rw [h3] at hunit
      simp [dot4] at hunit
    obtain ⟨-, -, h3, -⟩ := C07_sphere ρ ((rowRay r).map (s.heap.obj x).objT) hne
    have hmem' : (sphereIntersect ρ ((rowRay r).map (s.heap.obj x).objT)).1 = (d : EReal) ∨
        (sphereIntersect ρ ((rowRay r).map (s.heap.obj x).objT)).2 = (d : EReal) := by
      simp only [sort2, List.mem_cons, List.not_mem_nil, or_false] at hmem
      rcases hmem with h | h
      · rcases min_choice (sphereIntersect ρ ((rowRay r).map (s.heap.obj x).objT)).1 (sphereIntersect ρ ((rowRay r).map (s.heap.obj x).objT)).2 with e | e
        · exact .inl (e ▸ h.symm)
        · exact .inr (e ▸ h.symm)
      · rcases max_choice (sphereIntersect ρ ((rowRay r).map (s.heap.obj x).objT)).1 (sphereIntersect ρ ((rowRay r).map (s.heap.obj x).objT)).2 with e | e
        · exact .inl (e ▸ h.symm)
        · exact .inr (e ▸ h.symm)
    have hsq := (h3 d).1 hmem'
    have hfin : ((rowRay r).map (s.heap.obj x).objT).at d = point 0 0 0 + l := by
      rw [← el, ← hat]
      funext i
      simp only [Ray.at, Ray.map, mulVec4]
      ring
    dsimp only at hsq
    rw [hfin] at hsq
    rw [← hsq]
    simp [dot4, point, hl3]
    ring
  constructor
  · have := hq l hl3
    rw [hWl, hon] at this
    exact mul_right_cancel₀ (pow_ne_zero 2 hρ) (by rw [this, one_mul])
  · set d := r.finish - c with hd
    have e2 : (![(((s.heap.obj x).objT) *ᵥ r.finish) 0, (((s.heap.obj x).objT) *ᵥ r.finish) 1, (((s.heap.obj x).objT) *ᵥ r.finish) 2, 0] : Vec4) = l := by
      rw [el]; funext i; fin_cases i <;> simp [point, hl3]
    have e4 : zeroW ((s.heap.obj x).objTᵀ *ᵥ normalize l) = ((norm4 l)⁻¹ * (ρ ^ 2 / (A ^ 2 * C ^ 2))) • (C ^ 2 • d - ((C ^ 2 - A ^ 2) * dot4 e d) • e) := by
      refine eq_of_dots rfl (by simp [hp3, he3]) fun y hy => ?_
      rw [dot_zeroW_transpose _ _ _ hy, normalize_smul_eq, ho]
      have h1 := spheroid_polar hq hl3 (show (W⁻¹ *ᵥ y) 3 = 0 by rw [hi3, hy])
      rw [hWl, hmi] at h1
      have h2 : dot4 ((norm4 l)⁻¹ • l) (W⁻¹ *ᵥ y) = (norm4 l)⁻¹ * dot4 l (W⁻¹ *ᵥ y) := by simp [dot4]; ring
      rw [h2, ← h1]
      have h3 : ∀ (α β γ : ℝ) (p q : Vec4), dot4 (α • (β • p - γ • q)) y = α * (β * dot4 p y - γ * dot4 q y) := by
        intro α β γ p q; simp [dot4]; ring
      rw [h3]
      field_simp
      ring
    simp only [surfaceNormal, hk, worldNormal, Prim.normal]
    rw [e2, e4, normalize_smul_eq, smul_smul, smul_smul]
    exact ⟨_, rfl⟩

/-- what glass does to a ray, from the vector form of the law of refraction -/
theorem glass_turns {g : IndexModel} {wl : ℝ} {n u v w : Vec4} {n1 n2 far lam : ℝ} (hint : Interacts (.glass g) wl n u n1 w n2) (hn : dot4 n n = 1) (hu : dot4 u u = 1)
    (hw : dot4 w w = 1) (hfar : (if 0 < dot4 u n then 1 else g.indexAt wl) = far) (hf : 0 < far) (hv : dot4 v v = 1)
    (hlin : ∀ i, far * v i - n1 * u i = lam * n i) (hs : 0 < dot4 u n * dot4 v n) : w = v ∧ n2 = far := by
  have htan : ∀ i, n1 * (u i - dot4 u n * n i) = far * (v i - dot4 v n * n i) := by
    intro i
    have e : far * dot4 v n - n1 * dot4 u n = lam := by
      have : far * dot4 v n - n1 * dot4 u n = lam * dot4 n n := by
        simp only [dot4]
        linear_combination n 0 * hlin 0 + n 1 * hlin 1 + n 2 * hlin 2 + n 3 * hlin 3
      rw [this, hn, mul_one]
    linear_combination -hlin i + n i * e
  have key : ∀ z : Vec4, dot4 z z = 1 → dot4 (fun i => z i - dot4 z n * n i) (fun i => z i - dot4 z n * n i) = 1 - dot4 z n ^ 2 := by
    intro z hz
    have e : dot4 (fun i => z i - dot4 z n * n i) (fun i => z i - dot4 z n * n i) = dot4 z z - 2 * dot4 z n * dot4 z n + dot4 z n ^ 2 * dot4 n n := by
      simp only [dot4]; ring
    rw [e, hz, hn]; ring
  simp only [Interacts, hfar] at hint
  rcases hint with ⟨-, -, hperp, -, hp, hm, e2⟩ | ⟨hle, -⟩
  · refine ⟨eq_of_tangent hn hw hv (fun i => mul_left_cancel₀ hf.ne' (by rw [← hperp i, htan i])) ?_, e2⟩
    rcases lt_trichotomy (dot4 u n) 0 with h | h | h
    · exact mul_pos_of_neg_of_neg (hm h.le) (by nlinarith)
    · rw [h] at hs; simp at hs
    · exact mul_pos (hp h) (pos_of_mul_pos_right hs h.le)
  · exfalso
    have k1 := key u hu
    have k2 := key v hv
    have k3 : n1 ^ 2 * (1 - dot4 u n ^ 2) = far ^ 2 * (1 - dot4 v n ^ 2) := by
      rw [← k1, ← k2]
      simp only [dot4]
      have t0 := htan 0
      have t1 := htan 1
      have t2 := htan 2
      have t3 := htan 3
      simp only [dot4] at t0 t1 t2 t3
      rw [show ∀ a b c d : ℝ, n1 ^ 2 * (a * a + b * b + c * c + d * d) = (n1 * a) ^ 2 + (n1 * b) ^ 2 + (n1 * c) ^ 2 + (n1 * d) ^ 2 from fun _ _ _ _ => by ring, t0, t1, t2, t3]
      ring
    have h0 : 0 ≤ 1 - dot4 u n ^ 2 := by rw [← k1]; exact dot4_self_nonneg _
    have hv0 : dot4 v n ≠ 0 := fun h => by rw [h] at hs; simp at hs
    have h2 : (n1 * Spec.sinTo u n) ^ 2 < far ^ 2 := by
      rw [mul_pow]
      show n1 ^ 2 * √(1 - dot4 u n ^ 2) ^ 2 < far ^ 2
      rw [Real.sq_sqrt h0, k3]
      have : 0 < far ^ 2 * dot4 v n ^ 2 := by positivity
      linarith
    exact absurd (lt_of_pow_lt_pow_left₀ 2 hf.le h2) (not_lt.2 hle)

/-- the distances of a place of the spheroid from the foci -/
theorem spheroid_focal {A C h : ℝ} (hA : 0 < A) (hC : 0 < C) (hh : h ^ 2 = C ^ 2 - A ^ 2) {e d : Vec4} (hee : dot4 e e = 1) (hd : spheroid A C e d = 1) :
    C ^ 2 * dot4 d d = A ^ 2 * C ^ 2 + h ^ 2 * dot4 e d ^ 2 ∧ 0 < C ^ 2 - h * dot4 e d ∧ 0 < C ^ 2 + h * dot4 e d ∧
      C * norm4 (d - h • e) = C ^ 2 - h * dot4 e d ∧ C * norm4 (d + h • e) = C ^ 2 + h * dot4 e d := by
  set z := dot4 e d with hz
  have h1 : C ^ 2 * dot4 d d = A ^ 2 * C ^ 2 + h ^ 2 * z ^ 2 := by
    unfold spheroid at hd
    rw [← hz] at hd
    field_simp at hd
    rw [hh]; linarith
  have hcs : z ^ 2 ≤ dot4 d d := by
    have : 0 ≤ dot4 (d - z • e) (d - z • e) := dot4_self_nonneg _
    have e1 : dot4 (d - z • e) (d - z • e) = dot4 d d - 2 * z * dot4 e d + z ^ 2 * dot4 e e := by simp [dot4]; ring
    rw [e1, hee, ← hz] at this
    linarith
  have hzC : z ^ 2 ≤ C ^ 2 := by
    have : C ^ 2 * z ^ 2 ≤ A ^ 2 * C ^ 2 + h ^ 2 * z ^ 2 := by rw [← h1]; exact mul_le_mul_of_nonneg_left hcs (sq_nonneg C)
    rw [hh] at this
    have h3 : A ^ 2 * z ^ 2 ≤ A ^ 2 * C ^ 2 := by linarith
    exact le_of_mul_le_mul_left h3 (by positivity)
  have hhC : h ^ 2 < C ^ 2 := by rw [hh]; nlinarith
  have habs : |h * z| < C ^ 2 := by
    rw [abs_mul]
    have a1 : |z| ≤ C := abs_le_of_sq_le_sq' hzC hC.le |> abs_le.2
    have a2 : |h| < C := abs_lt_of_sq_lt_sq hhC hC.le
    nlinarith [abs_nonneg h, abs_nonneg z]
  obtain ⟨b1, b2⟩ := abs_lt.1 habs
  have p1 : 0 < C ^ 2 - h * z := by linarith
  have p2 : 0 < C ^ 2 + h * z := by linarith
  have key : ∀ t : ℝ, t ^ 2 = h ^ 2 → 0 < C ^ 2 + t * z → C * norm4 (d + t • e) = C ^ 2 + t * z := by
    intro t ht hp
    have e1 : dot4 (d + t • e) (d + t • e) = dot4 d d + 2 * t * dot4 e d + t ^ 2 * dot4 e e := by simp [dot4]; ring
    rw [norm4_eq, e1, hee, ← hz]
    have e2 : dot4 d d + 2 * t * z + t ^ 2 * 1 = ((C ^ 2 + t * z) / C) ^ 2 := by
      field_simp
      rw [ht]
      have ht2 : t ^ 2 * z ^ 2 = h ^ 2 * z ^ 2 := by rw [ht]
      nlinarith
    rw [e2, Real.sqrt_sq (by positivity)]
    field_simp
  refine ⟨h1, p1, p2, ?_, key h rfl p2⟩
  have := key (-h) (by ring) (by linarith)
  rw [neg_smul, ← sub_eq_add_neg] at this
  rw [this]; ring

/-- the gradient of the form and its product with the vectors from the foci -/
theorem spheroid_gradient {A C h : ℝ} (hA : 0 < A) (hC : 0 < C) (hh : h ^ 2 = C ^ 2 - A ^ 2) {e d : Vec4} (hee : dot4 e e = 1) (hd : spheroid A C e d = 1) {G : Vec4}
    (hG : G = C ^ 2 • d - (h ^ 2 * dot4 e d) • e) :
    dot4 e G = A ^ 2 * dot4 e d ∧ dot4 (d - h • e) G = A ^ 2 * (C * norm4 (d - h • e)) ∧ dot4 (d + h • e) G = A ^ 2 * (C * norm4 (d + h • e)) ∧
      dot4 G G = A ^ 2 * (C * norm4 (d - h • e)) * (C * norm4 (d + h • e)) := by
  obtain ⟨h1, -, -, h2, h3⟩ := spheroid_focal hA hC hh hee hd
  rw [h2, h3]
  set z := dot4 e d with hz
  have hA2 : A ^ 2 = C ^ 2 - h ^ 2 := by linarith
  have e1 : ∀ (a b : ℝ) (x y : Vec4), dot4 (x + a • y) (C ^ 2 • x - b • y) = C ^ 2 * dot4 x x - b * dot4 y x + a * C ^ 2 * dot4 y x - a * b * dot4 y y := by
    intro a b x y; simp [dot4]; ring
  have e2 : ∀ b : ℝ, dot4 e (C ^ 2 • d - b • e) = C ^ 2 * z - b := by
    intro b
    have : dot4 e (C ^ 2 • d - b • e) = C ^ 2 * dot4 e d - b * dot4 e e := by simp [dot4]; ring
    rw [this, hee, mul_one]
  have e3 : ∀ b : ℝ, dot4 (C ^ 2 • d - b • e) (C ^ 2 • d - b • e) = C ^ 4 * dot4 d d - 2 * C ^ 2 * b * dot4 e d + b ^ 2 * dot4 e e := by
    intro b; simp [dot4]; ring
  rw [hG]
  refine ⟨?_, ?_, ?_, ?_⟩
  · rw [e2, hA2]; ring
  · rw [sub_eq_add_neg d, ← neg_smul, e1, hee, ← hz, h1, hA2]; ring
  · rw [e1, hee, ← hz, h1, hA2]; ring
  · rw [e3, hee, ← hz]
    linear_combination C ^ 2 * h1 + h ^ 2 * z ^ 2 * hA2

/-- **C116.** A sphere that has been stretched along an axis is a spheroid, with two foci. If it is a mirror, a ray that comes from one focus (`τ = 1`), or is on its way to it
(`τ = -1`), goes on to the other focus, or as if it came from there; and all the ways from one focus to the other have the same length. `h` may be negative, so `c + h e` is either of
the foci; the ray may be inside or outside. -/
theorem C116_mirror (ha : IsArgsort argsort) (b : Bench argsort fuel s objs depth sources m)
    (ht : Tracer.Traces k (Tracer.new sources (objs.map (s.component argsort depth)) m limit) f) {r r' : Row} (hr : r ∈ f.frame)
    (hr' : r' ∈ f.frame) (hf : Follows r r') {c e : Vec4} {A C h : ℝ} {x : ℕ} (hsp : EndsOnSpheroid s objs depth c e A C x r) (hm : s.material x = .mirror)
    (hA : 0 < A) (hC : 0 < C) (hh : h ^ 2 = C ^ 2 - A ^ 2) (he3 : e 3 = 0) (hee : dot4 e e = 1) {τ : ℝ}
    (hdir : norm4 (r.finish - (c + h • e)) • r.dir = τ • (r.finish - (c + h • e))) :
    norm4 (r.finish - (c - h • e)) • r'.dir = -τ • (r.finish - (c - h • e)) ∧
      norm4 (r.finish - (c + h • e)) + norm4 (r.finish - (c - h • e)) = 2 * C := by
  obtain ⟨a, haa, id, -, hx, hid, -⟩ := _root_.id hsp
  obtain ⟨hn1, -, hint⟩ := b.optics ha ht hr hr' hf haa hx hid
  obtain ⟨hon, μ, hμ⟩ := finish_on_spheroid ha b ht hr hsp hA.ne' hC.ne' he3
  rw [hm] at hint
  have hrefl : ∀ i, r'.dir i = r.dir i - 2 * dot4 r.dir (surfaceNormal s.heap x r.finish) * surfaceNormal s.heap x r.finish i := hint.1
  rw [show r.finish - (c + h • e) = (r.finish - c) - h • e by abel] at hdir ⊢
  rw [show r.finish - (c - h • e) = (r.finish - c) + h • e by abel]
  set d := r.finish - c with hd
  set G : Vec4 := C ^ 2 • d - (h ^ 2 * dot4 e d) • e with hG
  rw [← hh, ← hG] at hμ
  obtain ⟨-, p1, p2, h1, h2⟩ := spheroid_focal hA hC hh hee hon
  obtain ⟨-, g1, -, g3⟩ := spheroid_gradient hA hC hh hee hon hG
  set R1 := norm4 (d - h • e) with hR1
  set R2 := norm4 (d + h • e) with hR2
  have q1 : 0 < R1 := by have := h1 ▸ p1; exact pos_of_mul_pos_right this hC.le
  have q2 : 0 < R2 := by have := h2 ▸ p2; exact pos_of_mul_pos_right this hC.le
  constructor
  · have hu : r.dir = (τ / R1) • (d - h • e) := by
      rw [div_eq_inv_mul, mul_smul, ← hdir, smul_smul, inv_mul_cancel₀ q1.ne', one_smul]
    have hug : dot4 r.dir G = τ * A ^ 2 * C := by
      have : dot4 r.dir G = τ / R1 * dot4 (d - h • e) G := by rw [hu]; simp [dot4]; ring
      rw [this, g1]; field_simp
    have hμ2 : μ ^ 2 * (A ^ 2 * C ^ 2 * R1 * R2) = 1 := by
      have : dot4 (μ • G) (μ • G) = μ ^ 2 * dot4 G G := by simp [dot4]; ring
      rw [hμ, this, g3] at hn1
      linarith
    funext i
    have h3 := hrefl i
    have h4 : dot4 r.dir (μ • G) = μ * dot4 r.dir G := by simp [dot4]; ring
    rw [hμ, h4, hug] at h3
    have h5 : r.dir i = τ / R1 * (d i - h * e i) := by rw [hu]; simp
    have h6 : G i = C ^ 2 * d i - h ^ 2 * dot4 e d * e i := by rw [hG]; simp
    simp only [Pi.smul_apply, Pi.add_apply, smul_eq_mul] at h3 ⊢
    rw [h3, h5]
    have h7 : C * R2 * (d i - h * e i) + C * R1 * (d i + h * e i) = 2 * G i := by rw [h1, h2, h6]; ring
    have h8 : τ / R1 * R1 = τ := div_mul_cancel₀ _ q1.ne'
    refine mul_left_cancel₀ (mul_pos hC q1).ne' ?_
    linear_combination C * R2 * (d i - h * e i) * h8 + τ * h7 - 2 * τ * G i * hμ2
  · have : C * (R1 + R2) = C * (2 * C) := by rw [mul_add, h1, h2]; ring
    exact mul_left_cancel₀ hC.ne' this

/-- **C116.** The spheroid as a lens: let its glass have, for the light of the ray, the index `N` with `N h = C`, that is one over the eccentricity. A ray that comes through the air
along the axis, at any distance from it, and enters at the near half goes exactly to the far focus; there is no aberration. The optical way to the focus is the same for all the
rays. -/
theorem C116_focus (ha : IsArgsort argsort) (b : Bench argsort fuel s objs depth sources m)
    (ht : Tracer.Traces k (Tracer.new sources (objs.map (s.component argsort depth)) m limit) f) {r r' : Row} (hr : r ∈ f.frame)
    (hr' : r' ∈ f.frame) (hf : Follows r r') {c e : Vec4} {A C h : ℝ} {x : ℕ} (hsp : EndsOnSpheroid s objs depth c e A C x r) {g : IndexModel} (hg : s.material x = .glass g)
    (hA : 0 < A) (hh : h ^ 2 = C ^ 2 - A ^ 2) (hh0 : 0 < h) (he3 : e 3 = 0) (hee : dot4 e e = 1) {N : ℝ} (hN : g.indexAt r.wavelength = N) (hNh : N * h = C)
    (hC : 0 < C) (hair : r.index = 1) (hin : dot4 r.dir (surfaceNormal s.heap x r.finish) < 0) (hnear : dot4 e (r.finish - c) < 0) (hdir : r.dir = e) :
    r'.index = N ∧ c + h • e = r.finish + norm4 (r.finish - (c + h • e)) • r'.dir ∧
      dot4 e (r.finish - c) + N * norm4 (r.finish - (c + h • e)) = N * C := by
  obtain ⟨a, haa, id, -, hx, hid, -⟩ := _root_.id hsp
  obtain ⟨hn1, -, hint⟩ := b.optics ha ht hr hr' hf haa hx hid
  obtain ⟨hon, μ, hμ⟩ := finish_on_spheroid ha b ht hr hsp hA.ne' hC.ne' he3
  rw [show r.finish - (c + h • e) = (r.finish - c) - h • e by abel]
  set d := r.finish - c with hd
  set G : Vec4 := C ^ 2 • d - (h ^ 2 * dot4 e d) • e with hG
  rw [← hh, ← hG] at hμ
  obtain ⟨-, p1, -, h1, -⟩ := spheroid_focal hA hC hh hee hon
  obtain ⟨g0, g1, -, -⟩ := spheroid_gradient hA hC hh hee hon hG
  set R := norm4 (d - h • e) with hR
  have q1 : 0 < R := by have := h1 ▸ p1; exact pos_of_mul_pos_right this hC.le
  have hN0 : 0 < N := by
    have : 0 < N * h := hNh ▸ hC
    exact pos_of_mul_pos_left this hh0.le
  set v : Vec4 := -(R⁻¹ • (d - h • e)) with hv
  have hsm : ∀ y : Vec4, dot4 y (μ • G) = μ * dot4 y G := fun y => by simp [dot4]; ring
  rw [hμ, hsm, hdir, g0] at hin
  have hμ0 : 0 < μ := by
    have : A ^ 2 * dot4 e d < 0 := mul_neg_of_pos_of_neg (by positivity) hnear
    exact pos_of_mul_neg_left hin this.le
  have hvG : dot4 v G = -(A ^ 2 * C) := by
    have : dot4 v G = -(R⁻¹ * dot4 (d - h • e) G) := by rw [hv]; simp [dot4]; ring
    rw [this, g1]; field_simp
  have hv1 : dot4 v v = 1 := by
    have : dot4 v v = R⁻¹ ^ 2 * dot4 (d - h • e) (d - h • e) := by rw [hv]; simp [dot4]; ring
    rw [this, ← norm4_sq, ← hR]; field_simp
  rw [hg, hair] at hint
  have hkey := glass_turns (v := v) (far := N) (lam := -(N / (C ^ 2 * R * μ))) hint hn1 (b.unit ha ht hr) (b.unit ha ht hr')
    (by rw [hμ, hsm, hdir, g0, if_neg (not_lt.2 hin.le), hN]) hN0 hv1
    (fun i => by
      rw [hμ, hdir]
      have h6 : G i = C ^ 2 * d i - h ^ 2 * dot4 e d * e i := by rw [hG]; simp
      have h7 : v i = -(R⁻¹ * (d i - h * e i)) := by rw [hv]; simp
      rw [Pi.smul_apply, smul_eq_mul, h6, h7]
      have h8 : C * (N * h) - C * R - h * dot4 e d = 0 := by rw [hNh, h1]; ring
      field_simp
      linear_combination (C * e i) * h8 - (h * dot4 e d * e i) * hNh)
    (by
      rw [hμ, hsm, hsm, hdir, g0, hvG]
      exact mul_pos_of_neg_of_neg hin (by nlinarith [mul_pos hμ0 (mul_pos (pow_pos hA 2) hC)]))
  refine ⟨hkey.2, ?_, ?_⟩
  · rw [hkey.1, hv, smul_neg, smul_smul, mul_inv_cancel₀ q1.ne', one_smul, hd]; abel
  · have : h * (dot4 e d + N * R) = h * (N * C) := by linear_combination (R - C) * hNh + h1
    exact mul_left_cancel₀ hh0.ne' this

/-- **C116.** And the way back: light that comes from the one focus inside the glass and meets the half beyond the centre leaves along the axis, never totally reflected, and the
optical way from the focus to a plane across the axis is the same for all the rays. -/
theorem C116_collimate (ha : IsArgsort argsort) (b : Bench argsort fuel s objs depth sources m)
    (ht : Tracer.Traces k (Tracer.new sources (objs.map (s.component argsort depth)) m limit) f) {r r' : Row} (hr : r ∈ f.frame)
    (hr' : r' ∈ f.frame) (hf : Follows r r') {c e : Vec4} {A C h : ℝ} {x : ℕ} (hsp : EndsOnSpheroid s objs depth c e A C x r) {g : IndexModel} (hg : s.material x = .glass g)
    (hA : 0 < A) (hh : h ^ 2 = C ^ 2 - A ^ 2) (hh0 : 0 < h) (he3 : e 3 = 0) (hee : dot4 e e = 1) {N : ℝ} (hNh : N * h = C)
    (hC : 0 < C) (hglass : r.index = N) (hout : 0 < dot4 r.dir (surfaceNormal s.heap x r.finish)) (hfar : 0 < dot4 e (r.finish - c))
    (hdir : norm4 (r.finish - (c - h • e)) • r.dir = r.finish - (c - h • e)) :
    r'.index = 1 ∧ r'.dir = e ∧ N * norm4 (r.finish - (c - h • e)) - dot4 e (r.finish - c) = N * C := by
  obtain ⟨a, haa, id, -, hx, hid, -⟩ := _root_.id hsp
  obtain ⟨hn1, -, hint⟩ := b.optics ha ht hr hr' hf haa hx hid
  obtain ⟨hon, μ, hμ⟩ := finish_on_spheroid ha b ht hr hsp hA.ne' hC.ne' he3
  rw [show r.finish - (c - h • e) = (r.finish - c) + h • e by abel] at hdir ⊢
  set d := r.finish - c with hd
  set G : Vec4 := C ^ 2 • d - (h ^ 2 * dot4 e d) • e with hG
  rw [← hh, ← hG] at hμ
  obtain ⟨-, -, p1, -, h1⟩ := spheroid_focal hA hC hh hee hon
  obtain ⟨g0, -, g1, -⟩ := spheroid_gradient hA hC hh hee hon hG
  set R := norm4 (d + h • e) with hR
  have q1 : 0 < R := by have := h1 ▸ p1; exact pos_of_mul_pos_right this hC.le
  have hN0 : 0 < N := by
    have : 0 < N * h := hNh ▸ hC
    exact pos_of_mul_pos_left this hh0.le
  have hu : r.dir = R⁻¹ • (d + h • e) := by rw [← hdir, smul_smul, inv_mul_cancel₀ q1.ne', one_smul]
  have hsm : ∀ y : Vec4, dot4 y (μ • G) = μ * dot4 y G := fun y => by simp [dot4]; ring
  have hug : dot4 r.dir G = A ^ 2 * C := by
    have : dot4 r.dir G = R⁻¹ * dot4 (d + h • e) G := by rw [hu]; simp [dot4]; ring
    rw [this, g1]; field_simp
  have hout' := hout
  rw [hμ, hsm, hug] at hout
  have hμ0 : 0 < μ := pos_of_mul_pos_left hout (by positivity)
  rw [hg, hglass] at hint
  have hkey := glass_turns (v := e) (far := 1) (lam := -(N / (C ^ 2 * R * μ))) hint hn1 (b.unit ha ht hr) (b.unit ha ht hr')
    (if_pos hout') one_pos hee
    (fun i => by
      have h6 : G i = C ^ 2 * d i - h ^ 2 * dot4 e d * e i := by rw [hG]; simp
      have h7 : r.dir i = R⁻¹ * (d i + h * e i) := by rw [hu]; simp
      rw [hμ, Pi.smul_apply, smul_eq_mul, h6, h7]
      have h8 : C * R - C * (N * h) - h * dot4 e d = 0 := by rw [hNh, h1]; ring
      field_simp
      linear_combination (C * e i) * h8 - (h * dot4 e d * e i) * hNh)
    (by
      rw [hμ, hsm, hsm, hug, g0]
      exact mul_pos hout (mul_pos hμ0 (mul_pos (by positivity) hfar)))
  refine ⟨hkey.2, hkey.1, ?_⟩
  have : h * (N * R - dot4 e d) = h * (N * C) := by linear_combination (R - C) * hNh + h1
  exact mul_left_cancel₀ hh0.ne' this

end

/-! ### Examples: a ball of radius 1, scaled by (3, 3, 5), inside a ball of radius 10 that absorbs. The foci are at 4 and -4 on the z axis -/

noncomputable def ballIn (m : Material) : Scene := pair (.sphere 10) (.sphere 1) (fun a => if a = 0 then .absorber else m)

/-- what is known of the scene after the inner ball has been scaled -/
structure Egg (argsort : List EReal → List ℕ) (m : Material) (s : Scene) : Prop where
  outer : s.material 0 = .absorber
  inner : s.material 1 = m
  placed : Placed argsort 1 s.heap
  size : s.heap.size = 2
  kind0 : (s.heap.obj 0).kind = .prim (.sphere 10)
  kind1 : (s.heap.obj 1).kind = .prim (.sphere 1)
  oid0 : (s.heap.obj 0).oid = 0
  oid1 : (s.heap.obj 1).oid = 1
  scale1 : (s.heap.obj 1).nscale = 1
  objT0 : (s.heap.obj 0).objT = 1
  world1 : (s.heap.obj 1).world = scaleMatrix 3 3 5
  objT1 : (s.heap.obj 1).objT = scaleMatrix (1 / 3) (1 / 3) (1 / 5)

theorem scale335_good : ∀ w, GoodWorld w → GoodWorld (scaleMatrix 3 3 5 * w) := by
  intro w ⟨h1, h2, h3⟩
  refine ⟨?_, row_mul rfl h2, ?_⟩
  · rw [det_mul]
    refine mul_ne_zero ?_ h1
    rw [det4]; simp [scaleMatrix]
  · rw [← mulVec_mulVec]
    refine h3.trans ?_
    generalize w *ᵥ vector 0 0 1 = v
    unfold norm4
    refine Real.sqrt_le_sqrt ?_
    simp only [mulVec4]
    simp [scaleMatrix]
    nlinarith [sq_nonneg (v 0), sq_nonneg (v 1), sq_nonneg (v 2)]

theorem egg_exists (argsort : List EReal → List ℕ) (m : Material) : ∃ h' : Heap, runMovements argsort 1 (ballIn m).heap [(1, .scale 3 3 5)] = (h', none) ∧
    Egg argsort m { ballIn m with heap := h' } := by
  obtain ⟨⟨k0, t0, i0, n0⟩, ⟨k1, t1, i1, n1⟩, hsz⟩ := pair_obj (.sphere 10) (.sphere 1) (fun a => if a = 0 then Material.absorber else m)
  have hr : Reaches argsort 1 Heap.empty (ballIn m).heap := pair_reaches argsort _ _ _ 1
  have hi := reaches_inv argsort empty_inv hr
  have w0 : ((ballIn m).heap.obj 0).world = 1 := by simp [ballIn, pair, newPrim, Heap.alloc, Heap.empty, Function.update]
  have w1 : ((ballIn m).heap.obj 1).world = 1 := by simp [ballIn, pair, newPrim, Heap.alloc, Heap.empty]
  have hsz' : (ballIn m).heap.size = 2 := hsz
  have k0' : ((ballIn m).heap.obj 0).kind = .prim (.sphere 10) := k0
  have k1' : ((ballIn m).heap.obj 1).kind = .prim (.sphere 1) := k1
  have hmat : (Movement.scale 3 3 5).matrix = .ok (scaleMatrix 3 3 5) := by
    simp only [Movement.matrix]; rw [if_neg (by norm_num)]
  obtain ⟨h', e, -⟩ := transform_succeeds argsort scale335_good 1 1 hi
    (fun b hb => by rw [hsz'] at hb; interval_cases b <;> simp only [w0, w1] <;> exact goodWorld_one) (by omega) (by simp [Spec.fits, ballIn, k1])
  have hcall : callMovement argsort 1 (ballIn m).heap 1 (.scale 3 3 5) = (h', none) := by
    simp only [callMovement, hmat, e]
  have hrun : runMovements argsort 1 (ballIn m).heap [(1, .scale 3 3 5)] = (h', none) := by
    simp only [runMovements, hcall]
    rfl
  obtain ⟨hi', hst, hw⟩ := runMovements_ok argsort _ hi (by simp [hsz']) hrun
  obtain ⟨s1, -, s3⟩ := hst
  have hw0 : (h'.obj 0).world = 1 := by
    rw [hw 0]; simp [worldAfter, hmat, visits, k1', w0]
  have hw1 : (h'.obj 1).world = scaleMatrix 3 3 5 := by
    rw [hw 1]; simp [worldAfter, hmat, visits, k1', w1]
  have hsize : h'.size = 2 := s1.trans hsz
  refine ⟨h', hrun, ?_⟩
  exact {
    outer := rfl
    inner := rfl
    placed := ReachesBy.placed argsort (.step (.movement 1 (.scale 3 3 5)) (.step (.newPrim _) (.step (.newPrim _) (.refl _) trivial (fun _ _ h => by cases h) rfl)
      trivial (fun _ _ h => by cases h) rfl) (by show 1 < (ballIn m).heap.size; omega) (fun a mv h => by cases h; exact fun m hm => by cases hm) hcall)
    size := hsize
    kind0 := (s3 0).1.trans k0
    kind1 := (s3 1).1.trans k1
    oid0 := (s3 0).2.1.trans i0
    oid1 := (s3 1).2.1.trans i1
    scale1 := (s3 1).2.2.1.trans n1
    objT0 := by rw [(hi'.synced 0 (by omega)).2.1, hw0]; simp
    world1 := hw1
    objT1 := by
      rw [(hi'.synced 1 (by omega)).2.1, hw1]
      refine Matrix.inv_eq_right_inv ?_
      ext i j; fin_cases i <;> fin_cases j <;> simp [scaleMatrix, Matrix.mul_apply, Fin.sum_univ_four] }

section
variable {sc : Scene} {mat : Material}

theorem egg_surfaces (x : Egg argsort mat sc) : surfaceIds 1 sc.heap 0 = [(0, 0)] ∧ surfaceIds 1 sc.heap 1 = [(1, 1)] := by
  constructor
  · rw [surfaceIds]; simp only [x.kind0, x.oid0]
  · rw [surfaceIds]; simp only [x.kind1, x.oid1]

theorem egg_bench (x : Egg argsort mat sc) (hm : ∀ g, mat = .glass g → 0 < g.indexAt 0.633) {y z dy dz n : ℝ} (hd : dy ^ 2 + dz ^ 2 = 1) (hn : 0 < n) :
    Bench argsort 1 sc [0, 1] 1 [fun _ => [plateCol y z dy dz n 0]] 1 where
  history := x.placed
  exist a h := by
    rw [x.size]
    simp at h; omega
  distinct := by simp [egg_surfaces x]
  sized a h y id p hx hk := by
    simp only [List.mem_cons, List.not_mem_nil, or_false] at h
    rcases h with rfl | rfl
    · rw [(egg_surfaces x).1] at hx
      simp only [List.mem_singleton, Prod.mk.injEq] at hx
      obtain ⟨-, rfl⟩ := hx
      rw [x.kind0] at hk
      cases hk; simp [Sized]
    · rw [(egg_surfaces x).2] at hx
      simp only [List.mem_singleton, Prod.mk.injEq] at hx
      obtain ⟨-, rfl⟩ := hx
      rw [x.kind1] at hk
      cases hk; norm_num [Sized]
  emits f hf c hc := by
    simp only [List.mem_singleton] at hf
    subst hf
    simp only [List.mem_singleton] at hc
    subst hc
    exact ⟨by simp [plateCol], rfl, rfl, by simp [plateCol, planeRay, norm4, vector, hd]⟩
  positive f hf c hc := by
    simp only [List.mem_singleton] at hf
    subst hf
    simp only [List.mem_singleton] at hc
    subst hc
    refine ⟨by simpa [plateCol] using hn, fun a haa y id g hx hg => ?_⟩
    simp only [List.mem_cons, List.not_mem_nil, or_false] at haa
    rcases haa with rfl | rfl
    · rw [(egg_surfaces x).1] at hx
      simp only [List.mem_singleton, Prod.mk.injEq] at hx
      rw [hx.2, x.outer] at hg; cases hg
    · rw [(egg_surfaces x).2] at hx
      simp only [List.mem_singleton, Prod.mk.injEq] at hx
      rw [hx.2, x.inner] at hg
      exact hm g hg

/-- the hits of the scaled ball, from the roots of its equation -/
theorem egg_hits {y z dy dz a b : ℝ} (hd : dy ^ 2 + dz ^ 2 = 1) (hab : a ≤ b) (h1 : -(dy ^ 2 / 9 + dz ^ 2 / 25) * (a + b) = 2 * (dy * y / 9 + dz * z / 25))
    (h2 : (dy ^ 2 / 9 + dz ^ 2 / 25) * (a * b) = y ^ 2 / 9 + z ^ 2 / 25 - 1) :
    sort2 ((Prim.sphere 1).intersect ((planeRay y z dy dz).map (scaleMatrix (1 / 3) (1 / 3) (1 / 5)))) = ((a : EReal), (b : EReal)) := by
  have em : (planeRay y z dy dz).map (scaleMatrix (1 / 3) (1 / 3) (1 / 5)) = planeRay (y / 3) (z / 5) (dy / 3) (dz / 5) := by
    simp only [Ray.map, planeRay, Ray.mk.injEq]
    constructor <;> funext i <;> fin_cases i <;> simp [scaleMatrix, Matrix.mulVec, dotProduct, Fin.sum_univ_four, point, vector] <;> ring
  rw [em]
  set A := dy ^ 2 / 9 + dz ^ 2 / 25 with hA
  have hA0 : 0 < A := by rw [hA]; nlinarith [sq_nonneg dy, sq_nonneg dz]
  have hle : (a : EReal) ≤ (b : EReal) := EReal.coe_le_coe_iff.2 hab
  have e : sphereIntersect 1 (planeRay (y / 3) (z / 5) (dy / 3) (dz / 5)) = ((b : EReal), (a : EReal)) := by
    have a1 : (planeRay (y / 3) (z / 5) (dy / 3) (dz / 5)).d 0 * (planeRay (y / 3) (z / 5) (dy / 3) (dz / 5)).d 0 +
        (planeRay (y / 3) (z / 5) (dy / 3) (dz / 5)).d 1 * (planeRay (y / 3) (z / 5) (dy / 3) (dz / 5)).d 1 +
        (planeRay (y / 3) (z / 5) (dy / 3) (dz / 5)).d 2 * (planeRay (y / 3) (z / 5) (dy / 3) (dz / 5)).d 2 = A := by
      simp [planeRay, vector, hA]; ring
    have b1 : 2 * ((planeRay (y / 3) (z / 5) (dy / 3) (dz / 5)).d 0 * (planeRay (y / 3) (z / 5) (dy / 3) (dz / 5)).o 0 +
        (planeRay (y / 3) (z / 5) (dy / 3) (dz / 5)).d 1 * (planeRay (y / 3) (z / 5) (dy / 3) (dz / 5)).o 1 +
        (planeRay (y / 3) (z / 5) (dy / 3) (dz / 5)).d 2 * (planeRay (y / 3) (z / 5) (dy / 3) (dz / 5)).o 2) = -A * (a + b) := by
      rw [h1]; simp [planeRay, vector, point]; ring
    have c1 : (planeRay (y / 3) (z / 5) (dy / 3) (dz / 5)).o 0 * (planeRay (y / 3) (z / 5) (dy / 3) (dz / 5)).o 0 +
        (planeRay (y / 3) (z / 5) (dy / 3) (dz / 5)).o 1 * (planeRay (y / 3) (z / 5) (dy / 3) (dz / 5)).o 1 +
        (planeRay (y / 3) (z / 5) (dy / 3) (dz / 5)).o 2 * (planeRay (y / 3) (z / 5) (dy / 3) (dz / 5)).o 2 - 1 ^ 2 = A * (a * b) := by
      rw [h2]; simp [planeRay, point]; ring
    unfold sphereIntersect
    dsimp only
    rw [a1, b1, c1, if_neg hA0.ne']
    have h3 : (-A * (a + b)) ^ 2 - 4 * A * (A * (a * b)) = (A * (b - a)) ^ 2 := by ring
    rw [h3, polyRoots, if_pos (sq_nonneg _), max_eq_right (sq_nonneg _), Real.sqrt_sq (mul_nonneg hA0.le (by linarith))]
    congr 2 <;> field_simp <;> ring
  rw [Prim.intersect, e]
  simp only [sort2, min_eq_right hle, max_eq_left hle]

/-- the nearest hit: the scaled ball is hit at `a'` and `b'`, the outer ball only beyond `D` -/
theorem egg_nearest (x : Egg argsort mat sc) {y z dy dz a' b' d K : ℝ} (hdir : dy ^ 2 + dz ^ 2 = 1) (hab : a' ≤ b')
    (h1 : -(dy ^ 2 / 9 + dz ^ 2 / 25) * (a' + b') = 2 * (dy * y / 9 + dz * z / 25)) (h2 : (dy ^ 2 / 9 + dz ^ 2 / 25) * (a' * b') = y ^ 2 / 9 + z ^ 2 / 25 - 1)
    (hK : 0 ≤ K) (hK2 : K ^ 2 = (y * dy + z * dz) ^ 2 - (y ^ 2 + z ^ 2) + 10 ^ 2) (hd : 0 < d) (hA : -(y * dy + z * dz) - K ≤ 0) (hB : d ≤ -(y * dy + z * dz) + K)
    (hC : a' ≤ 0 ∨ d ≤ a') (hD : b' ≤ 0 ∨ d ≤ b') :
    (d = -(y * dy + z * dz) + K → Nearest ([0, 1].map (sc.component argsort 1)) (planeRay y z dy dz) d 0) ∧
    (d < -(y * dy + z * dz) + K → a' = d ∨ b' = d → Nearest ([0, 1].map (sc.component argsort 1)) (planeRay y z dy dz) d 1) := by
  have hs0 := unit_sphere_hits (R := 10) hdir hK hK2
  have hs1 := egg_hits hdir hab h1 h2
  set ray := planeRay y z dy dz with hray
  set B := -(y * dy + z * dz) with hBd
  have m0 : ray.map (1 : Mat4) = ray := by simp [Ray.map]
  have e0 : (sc.component argsort 1 0).intersect ray = ([((B - K : ℝ) : EReal), ((B + K : ℝ) : EReal)], [0, 0]) := by
    show intersectObj argsort 1 sc.heap 0 ray = _
    simp only [intersectObj, x.kind0, leafIntersect, x.objT0, x.oid0, m0, hs0]
    rfl
  have e1 : (sc.component argsort 1 1).intersect ray = ([(a' : EReal), (b' : EReal)], [1, 1]) := by
    show intersectObj argsort 1 sc.heap 1 ray = _
    simp only [intersectObj, x.kind1, leafIntersect, x.objT1, x.oid1, hs1]
    rfl
  have le : ∀ {a : ℝ}, (a ≤ 0 ∨ d ≤ a) → 0 < (a : EReal) → (d : EReal) ≤ (a : EReal) := by
    intro a h hp
    have : 0 < a := by exact_mod_cast hp
    exact EReal.coe_le_coe_iff.2 (h.resolve_left (not_le.2 this))
  have hmin : ∀ c ∈ [0, 1].map (sc.component argsort 1), ∀ h ∈ (c.intersect ray).1, 0 < h → (d : EReal) ≤ h := by
    intro c hc h hh hpos
    simp only [List.map_cons, List.map_nil, List.mem_cons, List.not_mem_nil, or_false] at hc
    rcases hc with rfl | rfl
    · rw [e0] at hh
      simp only [List.mem_cons, List.not_mem_nil, or_false] at hh
      rcases hh with rfl | rfl
      · exact le (Or.inl hA) hpos
      · exact le (Or.inr hB) hpos
    · rw [e1] at hh
      simp only [List.mem_cons, List.not_mem_nil, or_false] at hh
      rcases hh with rfl | rfl
      · exact le hC hpos
      · exact le hD hpos
  constructor
  · intro h
    refine ⟨hd, hmin, 0, _, 1, rfl, fun j hj => by omega, by rw [e0, h]; rfl, fun j hj => ?_, by rw [e0]; rfl⟩
    obtain rfl : j = 0 := by omega
    rw [e0]
    simp only [List.getElem?_cons_zero, ne_eq, Option.some.injEq, EReal.coe_eq_coe_iff]
    intro e; linarith
  · intro hlt hor
    have hbefore : ∀ j < 1, ∀ c' : Component, ([0, 1].map (sc.component argsort 1))[j]? = some c' → (d : EReal) ∉ (c'.intersect ray).1 := by
      intro j hj c' hc'
      obtain rfl : j = 0 := by omega
      simp only [List.map_cons, List.getElem?_cons_zero, Option.some.injEq] at hc'
      subst hc'
      rw [e0]
      simp only [List.mem_cons, List.not_mem_nil, or_false, not_or, EReal.coe_eq_coe_iff]
      exact ⟨fun e => by linarith, fun e => by linarith⟩
    by_cases h : a' = d
    · exact ⟨hd, hmin, 1, _, 0, rfl, hbefore, by rw [e1, h]; rfl, fun j hj => by omega, by rw [e1]; rfl⟩
    · have hb2 := hor.resolve_left h
      refine ⟨hd, hmin, 1, _, 1, rfl, hbefore, by rw [e1, hb2]; rfl, fun j hj => ?_, by rw [e1]; rfl⟩
      obtain rfl : j = 0 := by omega
      rw [e1]
      simpa using h

/-- the same where the ray starts and hits the scaled ball inside the outer one -/
theorem egg_near (x : Egg argsort mat sc) {y z dy dz a' b' d : ℝ} (hdir : dy ^ 2 + dz ^ 2 = 1) (hab : a' ≤ b')
    (h1 : -(dy ^ 2 / 9 + dz ^ 2 / 25) * (a' + b') = 2 * (dy * y / 9 + dz * z / 25)) (h2 : (dy ^ 2 / 9 + dz ^ 2 / 25) * (a' * b') = y ^ 2 / 9 + z ^ 2 / 25 - 1)
    (hd : 0 < d) (hin : y ^ 2 + z ^ 2 < 100) (hend : (y + d * dy) ^ 2 + (z + d * dz) ^ 2 < 100) (hC : a' ≤ 0 ∨ d ≤ a') (hD : b' ≤ 0 ∨ d ≤ b') (hor : a' = d ∨ b' = d) :
    Nearest ([0, 1].map (sc.component argsort 1)) (planeRay y z dy dz) d 1 := by
  have hK0 : 0 ≤ (y * dy + z * dz) ^ 2 - (y ^ 2 + z ^ 2) + 10 ^ 2 := by nlinarith [sq_nonneg (y * dy + z * dz)]
  have hK := Real.sq_sqrt hK0
  have hKn := Real.sqrt_nonneg ((y * dy + z * dz) ^ 2 - (y ^ 2 + z ^ 2) + 10 ^ 2)
  set K := √((y * dy + z * dz) ^ 2 - (y ^ 2 + z ^ 2) + 10 ^ 2)
  have e1 : |y * dy + z * dz| < K := abs_lt_of_sq_lt_sq (by linarith) hKn
  have e2 : |d + (y * dy + z * dz)| < K := abs_lt_of_sq_lt_sq (by
    have e : (y + d * dy) ^ 2 + (z + d * dz) ^ 2 = y ^ 2 + z ^ 2 + 2 * d * (y * dy + z * dz) + d ^ 2 := by linear_combination d ^ 2 * hdir
    rw [e] at hend
    rw [hK]; nlinarith) hKn
  obtain ⟨a1, a2⟩ := abs_lt.1 e1
  obtain ⟨a3, a4⟩ := abs_lt.1 e2
  exact (egg_nearest x hdir hab h1 h2 hKn hK hd (by linarith) (by linarith) hC hD).2 (by linarith) hor

/-- a ray in the plane x = 0 that meets the scaled ball -/
theorem egg_step (x : Egg argsort mat sc) {c0 : Col} {limit : ℤ} {y z dy dz n d y' z' dy' dz' n' : ℝ} {g : ℕ}
    (hj : Journey (Tracer.new [fun _ => [c0]] ([0, 1].map (sc.component argsort 1)) 1 limit) c0 g (plateCol y z dy dz n g))
    (hd : dy ^ 2 + dz ^ 2 = 1) (hn : Nearest ([0, 1].map (sc.component argsort 1)) (planeRay y z dy dz) d 1) (hy : y + d * dy = y') (hz : z + d * dz = z')
    (hm : { mat.trace (surfaceNormal sc.heap 1) (plateCol y' z' dy dz n g) with generation := (g : ℝ) + 1 } = plateCol y' z' dy' dz' n' (g + 1)) :
    Journey (Tracer.new [fun _ => [c0]] ([0, 1].map (sc.component argsort 1)) 1 limit) c0 (g + 1)
      (plateCol (y' + 1e-6 * dy') (z' + 1e-6 * dz') dy' dz' n' (g + 1)) := by
  have h := hj.next (not_extinct_of_unit (by simp [plateCol, planeRay, norm4, vector, hd])) hn
    (f := fun c => (sc.material 1).trace (surfaceNormal sc.heap 1) c)
    (by simp [Tracer.new, Scene.component, egg_surfaces x])
  rw [moved_plateCol, hy, hz] at h
  simp only [x.inner] at h
  rw [hm, moved_plateCol] at h
  exact h

/-- a column of a journey and its nearest hit give a row -/
theorem egg_row {y0 z0 dy0 dz0 n0 y z dy dz n d : ℝ} {g k : ℕ} {t' : Tracer} {sf : ℤ}
    (ha : IsArgsort argsort) (b : Bench argsort 1 sc [0, 1] 1 [fun _ => [plateCol y0 z0 dy0 dz0 n0 0]] 1)
    (h : Tracer.Traces k (Tracer.new [fun _ => [plateCol y0 z0 dy0 dz0 n0 0]] ([0, 1].map (sc.component argsort 1)) 1 3) t')
    (hj : Journey (Tracer.new [fun _ => [plateCol y0 z0 dy0 dz0 n0 0]] ([0, 1].map (sc.component argsort 1)) 1 3) (plateCol y0 z0 dy0 dz0 n0 0) g
      (plateCol y z dy dz n g))
    (hd : dy ^ 2 + dz ^ 2 = 1) (hn : Nearest ([0, 1].map (sc.component argsort 1)) (planeRay y z dy dz) d sf) (hg : g < 3) :
    ∃ r ∈ t'.frame, r.id = 0 ∧ r.generation = g ∧ r.surface = sf ∧ r.index = n ∧ r.wavelength = 0.633 ∧ r.dir = vector 0 dy dz ∧
      r.finish = point 0 (y + d * dy) (z + d * dz) := by
  obtain ⟨r, hr⟩ := segment_exists (plateCol y z dy dz n g) d sf
  refine ⟨r, (trace_iff (b.ok ha 3) h r).2 ⟨0, g, fun _ => ?_, _, _, _, _, ⟨plateCol y0 z0 dy0 dz0 n0 0, rfl, by simp [plateCol]⟩, hj,
    not_extinct_of_unit (by simp [plateCol, planeRay, norm4, vector, hd]), hn, hr⟩, hr.id, hr.generation, hr.surface, hr.index, hr.wavelength, ?_, ?_⟩
  · show (g : ℤ) < 3
    exact_mod_cast hg
  · have e : √(dy ^ 2 + dz ^ 2) = 1 := by rw [hd, Real.sqrt_one]
    funext i
    fin_cases i <;> simp only [Row.dir, vector, hr.tilt] <;> simp [plateCol, planeRay, vector, e]
  · funext i
    fin_cases i <;> simp only [Row.finish, point, hr.stop] <;> simp [plateCol, planeRay, vector, point]

theorem egg_ends (x : Egg argsort mat sc) {r : Row} (hr : r.surface = 1) : EndsOnSpheroid sc [0, 1] 1 (point 0 0 0) (vector 0 0 1) 3 5 1 r := by
  refine ⟨1, by simp, 1, 1, by simp [egg_surfaces x], by simpa using hr, x.kind1, ?_, fun v hv => ?_⟩
  · rw [x.world1]; funext i; fin_cases i <;> simp [scaleMatrix, Matrix.mulVec, dotProduct, Fin.sum_univ_four, point]
  · rw [x.world1]
    simp [spheroid, dot4, scaleMatrix, Matrix.mulVec, dotProduct, Fin.sum_univ_four, vector, hv]
    ring

/-- the normal where the equation of the scaled ball has the gradient `c (ny, nz)` -/
theorem egg_normal (x : Egg argsort mat sc) {y z ny nz c : ℝ} (hon : y ^ 2 / 9 + z ^ 2 / 25 = 1) (hc : 0 < c) (hn : ny ^ 2 + nz ^ 2 = 1) (h1 : y / 9 = c * ny) (h2 : z / 25 = c * nz) :
    surfaceNormal sc.heap 1 (point 0 y z) = vector 0 ny nz := by
  have hp : scaleMatrix (1 / 3) (1 / 3) (1 / 5) *ᵥ point 0 y z = point 0 (y / 3) (z / 5) := by
    funext i; fin_cases i <;> simp [scaleMatrix, Matrix.mulVec, dotProduct, Fin.sum_univ_four, point] <;> ring
  have e1 : Prim.normal (.sphere 1) (point 0 (y / 3) (z / 5)) = vector 0 (y / 3) (z / 5) := by
    have : (y / 3) ^ 2 + (z / 5) ^ 2 = 1 := by rw [← hon]; ring
    funext i
    fin_cases i <;> simp [Prim.normal, normalize, norm4, point, vector, this]
  have e2 : zeroW ((scaleMatrix (1 / 3) (1 / 3) (1 / 5))ᵀ *ᵥ vector 0 (y / 3) (z / 5)) = c • vector 0 ny nz := by
    funext i
    fin_cases i <;> simp [scaleMatrix, Matrix.mulVec, dotProduct, Fin.sum_univ_four, vector, zeroW, Matrix.transpose]
    · rw [← h1]; ring
    · rw [← h2]; ring
  have e3 : normalize (c • vector 0 ny nz) = vector 0 ny nz := by
    have : norm4 (c • vector 0 ny nz) = c := by
      unfold norm4
      rw [show ((c • vector 0 ny nz) 0 ^ 2 + (c • vector 0 ny nz) 1 ^ 2 + (c • vector 0 ny nz) 2 ^ 2 + (c • vector 0 ny nz) 3 ^ 2) = c ^ 2 by
        simp [vector]; linear_combination c ^ 2 * hn, Real.sqrt_sq hc.le]
    rw [normalize_smul_eq, this, smul_smul, inv_mul_cancel₀ hc.ne', one_smul]
  simp only [surfaceNormal, x.kind1, worldNormal, x.objT1, x.scale1, one_smul, hp, e1, e2, e3]

end

/-- non-vacuity of `C116_mirror`: from the upper focus straight to the side, to the place at 1.8 from the axis, and on to the lower focus -/
example (ha : IsArgsort argsort) : ∃ (h' : Heap) (k : ℕ) (t' : Tracer) (r r' : Row), runMovements argsort 1 (ballIn .mirror).heap [(1, .scale 3 3 5)] = (h', none) ∧
    Tracer.Traces k (Tracer.new [fun _ => [plateCol 0 4 1 0 1 0]] ([0, 1].map (({ ballIn .mirror with heap := h' } : Scene).component argsort 1)) 1 3) t' ∧
    r ∈ t'.frame ∧ r' ∈ t'.frame ∧ r.finish = point 0 1.8 4 ∧
    norm4 (r.finish - point 0 0 (-4)) • r'.dir = -(1 : ℝ) • (r.finish - point 0 0 (-4)) ∧ norm4 (r.finish - point 0 0 4) + norm4 (r.finish - point 0 0 (-4)) = 2 * 5 := by
  obtain ⟨h', hrun, x⟩ := egg_exists argsort .mirror
  refine ⟨h', ?_⟩
  set sc : Scene := { ballIn .mirror with heap := h' } with hsc
  have b : Bench argsort 1 sc [0, 1] 1 [fun _ => [plateCol 0 4 1 0 1 0]] 1 := egg_bench x (fun g hg => by cases hg) (by norm_num) (by norm_num)
  have ok := b.ok ha 3
  obtain ⟨k, t', h, -⟩ := C26_terminates (Tracer.new [fun _ => [plateCol 0 4 1 0 1 0]] ([0, 1].map (sc.component argsort 1)) 1 3)
    (by simp [Tracer.new]) (by simp [Tracer.new]) (fun s hs c hc => (ok.emits s hs c hc).1)
  have hq : √41 * √41 = 41 := Real.mul_self_sqrt (by norm_num)
  have hq0 : 0 < √41 := Real.sqrt_pos.2 (by norm_num)
  have n0 : Nearest ([0, 1].map (sc.component argsort 1)) (planeRay 0 4 1 0) 1.8 1 :=
    egg_near x (a' := -1.8) (b' := 1.8) (by norm_num) (by norm_num) (by norm_num) (by norm_num) (by norm_num) (by norm_num) (by norm_num) (Or.inl (by norm_num)) (Or.inr le_rfl)
      (Or.inr rfl)
  have hnor := egg_normal x (y := 1.8) (z := 4) (ny := 5 / √41) (nz := 4 / √41) (c := 0.04 * √41) (by norm_num) (by positivity)
    (by rw [div_pow, div_pow, pow_two (√41), hq]; norm_num) (by field_simp; norm_num) (by field_simp; norm_num)
  have j1 := egg_step x (limit := 3) (Journey.start (t := Tracer.new [fun _ => [plateCol 0 4 1 0 1 0]] ([0, 1].map (sc.component argsort 1)) 1 3)
    (c0 := plateCol 0 4 1 0 1 0)) (by norm_num) n0 (y' := 1.8) (z' := 4) (dy' := -9 / 41) (dz' := -40 / 41) (n' := 1) (by norm_num) (by norm_num)
    (by
      have e : (plateCol 1.8 4 1 0 1 0).ray.o = point 0 1.8 4 := rfl
      simp only [Material.trace, e]
      rw [hnor]
      simp only [plateCol, planeRay, Nat.cast_add, Nat.cast_one, Col.mk.injEq, Ray.mk.injEq, and_true, true_and]
      have h1 := turned_value (a := 1) (b := 0) (p := 5) (q := 4) (u := 5) hq
      have h2 := turned_value (a := 1) (b := 0) (p := 5) (q := 4) (u := 4) hq
      funext i
      fin_cases i <;> simp [dot4, vector] at h1 h2 ⊢ <;> norm_num at h1 h2 ⊢ <;> linarith)
  have n1 : Nearest ([0, 1].map (sc.component argsort 1)) (planeRay (1.8 + 1e-6 * (-9 / 41)) (4 + 1e-6 * (-40 / 41)) (-9 / 41) (-40 / 41)) (672.4 / 73 - 1e-6) 1 :=
    egg_near x (a' := -1e-6) (b' := 672.4 / 73 - 1e-6) (by norm_num) (by norm_num) (by norm_num) (by norm_num) (by norm_num) (by norm_num) (by norm_num)
      (Or.inl (by norm_num)) (Or.inr le_rfl) (Or.inr rfl)
  obtain ⟨r, hr, a1, a2, a3, a4, a5, a6, a7⟩ := egg_row ha b h .start (by norm_num) n0 (by norm_num)
  obtain ⟨r', hr', b1, b2, b3, b4, b5, b6, -⟩ := egg_row ha b h j1 (by norm_num) n1 (by norm_num)
  have hF1 : point 0 0 0 + (4 : ℝ) • vector 0 0 1 = point 0 0 4 := by funext i; fin_cases i <;> simp [point, vector]
  have hF2 : point 0 0 0 - (4 : ℝ) • vector 0 0 1 = point 0 0 (-4) := by funext i; fin_cases i <;> simp [point, vector]
  have p1 : r.finish = point 0 1.8 4 := by rw [a7]; norm_num
  have hd1 : norm4 (r.finish - point 0 0 4) = 1.8 := by
    rw [p1]; unfold norm4; simp [point]; norm_num
  have := C116_mirror ha b h hr hr' ⟨by rw [a1, b1], by rw [a2, b2]; push_cast; ring⟩ (egg_ends x a3) x.inner (by norm_num) (by norm_num) (h := 4) (by norm_num) rfl
    (by simp [dot4, vector]) (τ := 1) (by
      rw [hF1, hd1, one_smul, p1, a6]; funext i; fin_cases i <;> simp [point, vector])
  rw [hF1, hF2] at this
  exact ⟨k, t', r, r', hrun, h, hr, hr', p1, this.1, this.2⟩

/-- non-vacuity of `C116_focus`: with the index 5/4, a ray along the axis, at 1.8 from it, goes to the upper focus -/
example (ha : IsArgsort argsort) : ∃ (h' : Heap) (k : ℕ) (t' : Tracer) (r r' : Row), runMovements argsort 1 (ballIn (.glass (.basic (5 / 4)))).heap [(1, .scale 3 3 5)] = (h', none) ∧
    Tracer.Traces k (Tracer.new [fun _ => [plateCol 1.8 (-6) 0 1 1 0]] ([0, 1].map (({ ballIn (.glass (.basic (5 / 4))) with heap := h' } : Scene).component argsort 1)) 1 3) t' ∧
    r ∈ t'.frame ∧ r' ∈ t'.frame ∧ r.finish = point 0 1.8 (-4) ∧ r'.index = 5 / 4 ∧ point 0 0 4 = r.finish + norm4 (r.finish - point 0 0 4) • r'.dir := by
  obtain ⟨h', hrun, x⟩ := egg_exists argsort (.glass (.basic (5 / 4)))
  refine ⟨h', ?_⟩
  set sc : Scene := { ballIn (.glass (.basic (5 / 4))) with heap := h' } with hsc
  have b : Bench argsort 1 sc [0, 1] 1 [fun _ => [plateCol 1.8 (-6) 0 1 1 0]] 1 := egg_bench x (fun g hg => by cases hg; simp [IndexModel.indexAt]) (by norm_num) (by norm_num)
  have ok := b.ok ha 3
  obtain ⟨k, t', h, -⟩ := C26_terminates (Tracer.new [fun _ => [plateCol 1.8 (-6) 0 1 1 0]] ([0, 1].map (sc.component argsort 1)) 1 3)
    (by simp [Tracer.new]) (by simp [Tracer.new]) (fun s hs c hc => (ok.emits s hs c hc).1)
  have hq : √41 * √41 = 41 := Real.mul_self_sqrt (by norm_num)
  have hq0 : 0 < √41 := Real.sqrt_pos.2 (by norm_num)
  have n0 : Nearest ([0, 1].map (sc.component argsort 1)) (planeRay 1.8 (-6) 0 1) 2 1 :=
    egg_near x (a' := 2) (b' := 10) (by norm_num) (by norm_num) (by norm_num) (by norm_num) (by norm_num) (by norm_num) (by norm_num) (Or.inr le_rfl) (Or.inr (by norm_num))
      (Or.inl rfl)
  have hnor := egg_normal x (y := 1.8) (z := -4) (ny := 5 / √41) (nz := -4 / √41) (c := 0.04 * √41) (by norm_num) (by positivity)
    (by rw [div_pow, div_pow, pow_two (√41), hq]; norm_num) (by field_simp; norm_num) (by field_simp; norm_num)
  have j1 := egg_step x (limit := 3) (Journey.start (t := Tracer.new [fun _ => [plateCol 1.8 (-6) 0 1 1 0]] ([0, 1].map (sc.component argsort 1)) 1 3)
    (c0 := plateCol 1.8 (-6) 0 1 1 0)) (by norm_num) n0 (y' := 1.8) (z' := -4) (dy' := -9 / 41) (dz' := 40 / 41) (n' := 5 / 4) (by norm_num) (by norm_num)
    (glassN_plateCol (by
      rw [hnor]
      have e1 : dot4 (vector 0 0 1) (vector 0 (5 / √41) (-4 / √41)) = -4 / √41 := by simp [dot4, vector]
      have e2 : dot4 (vector 0 (-9 / 41) (40 / 41)) (vector 0 (5 / √41) (-4 / √41)) = -5 / √41 := by simp [dot4, vector]; ring
      refine refract_value (far := 5 / 4) (by simp [dot4, vector]) (by
          simp [dot4, vector, div_mul_div_comm, hq]; norm_num) (by norm_num) (by norm_num) one_pos ?_ (by simp [dot4, vector]; norm_num) ?_ ?_ ?_ ?_
      · rw [e1]; exact (if_neg (by rw [not_lt]; exact div_nonpos_of_nonpos_of_nonneg (by norm_num) hq0.le)).symm
      · unfold Spec.sinTo
        rw [e1, div_pow, pow_two (√41), hq]
        have : √(1 - (-4) ^ 2 / 41) ≤ 1 := Real.sqrt_le_iff.2 (by norm_num)
        norm_num at this ⊢; linarith
      · intro i
        rw [e1, e2]
        fin_cases i <;> simp [vector, div_mul_div_comm, hq] <;> norm_num
      · rw [e1, e2]; intro h; exact absurd h (not_lt.2 (div_nonpos_of_nonpos_of_nonneg (by norm_num) hq0.le))
      · rw [e1, e2]; intro h; exact div_neg_of_neg_of_pos (by norm_num) hq0))
  have n1 : Nearest ([0, 1].map (sc.component argsort 1)) (planeRay (1.8 + 1e-6 * (-9 / 41)) (-4 + 1e-6 * (40 / 41)) (-9 / 41) (40 / 41)) (672.4 / 73 - 1e-6) 1 :=
    egg_near x (a' := -1e-6) (b' := 672.4 / 73 - 1e-6) (by norm_num) (by norm_num) (by norm_num) (by norm_num) (by norm_num) (by norm_num) (by norm_num)
      (Or.inl (by norm_num)) (Or.inr le_rfl) (Or.inr rfl)
  obtain ⟨r, hr, a1, a2, a3, a4, a5, a6, a7⟩ := egg_row ha b h .start (by norm_num) n0 (by norm_num)
  obtain ⟨r', hr', b1, b2, b3, b4, b5, b6, -⟩ := egg_row ha b h j1 (by norm_num) n1 (by norm_num)
  have hF1 : point 0 0 0 + (4 : ℝ) • vector 0 0 1 = point 0 0 4 := by funext i; fin_cases i <;> simp [point, vector]
  have hF2 : point 0 0 0 - (4 : ℝ) • vector 0 0 1 = point 0 0 (-4) := by funext i; fin_cases i <;> simp [point, vector]
  have p1 : r.finish = point 0 1.8 (-4) := by rw [a7]; norm_num
  have := C116_focus ha b h hr hr' ⟨by rw [a1, b1], by rw [a2, b2]; push_cast; ring⟩ (egg_ends x a3) x.inner (by norm_num) (h := 4) (by norm_num) (by norm_num) rfl
    (by simp [dot4, vector]) (N := 5 / 4) rfl (by norm_num) (by norm_num) a4 (by
      rw [p1, hnor, a6]; simp [dot4, vector]; exact div_neg_of_neg_of_pos (by norm_num) hq0) (by rw [p1]; simp [dot4, point, vector]) a6
  rw [hF1] at this
  exact ⟨k, t', r, r', hrun, h, hr, hr', p1, this.1, this.2.1⟩

/-- non-vacuity of `C116_collimate`: with the index 5/4, light from the lower focus leaves along the axis -/
example (ha : IsArgsort argsort) : ∃ (h' : Heap) (k : ℕ) (t' : Tracer) (r r' : Row), runMovements argsort 1 (ballIn (.glass (.basic (5 / 4)))).heap [(1, .scale 3 3 5)] = (h', none) ∧
    Tracer.Traces k (Tracer.new [fun _ => [plateCol 0 (-4) (9 / 41) (40 / 41) (5 / 4) 0]] ([0, 1].map (({ ballIn (.glass (.basic (5 / 4))) with heap := h' } : Scene).component argsort 1)) 1 3) t' ∧
    r ∈ t'.frame ∧ r' ∈ t'.frame ∧ r.finish = point 0 1.8 4 ∧ r'.index = 1 ∧ r'.dir = vector 0 0 1 := by
  obtain ⟨h', hrun, x⟩ := egg_exists argsort (.glass (.basic (5 / 4)))
  refine ⟨h', ?_⟩
  set sc : Scene := { ballIn (.glass (.basic (5 / 4))) with heap := h' } with hsc
  have b : Bench argsort 1 sc [0, 1] 1 [fun _ => [plateCol 0 (-4) (9 / 41) (40 / 41) (5 / 4) 0]] 1 := egg_bench x (fun g hg => by cases hg; simp [IndexModel.indexAt]) (by norm_num) (by norm_num)
  have ok := b.ok ha 3
  obtain ⟨k, t', h, -⟩ := C26_terminates (Tracer.new [fun _ => [plateCol 0 (-4) (9 / 41) (40 / 41) (5 / 4) 0]] ([0, 1].map (sc.component argsort 1)) 1 3)
    (by simp [Tracer.new]) (by simp [Tracer.new]) (fun s hs c hc => (ok.emits s hs c hc).1)
  have hq : √41 * √41 = 41 := Real.mul_self_sqrt (by norm_num)
  have hq0 : 0 < √41 := Real.sqrt_pos.2 (by norm_num)
  have n0 : Nearest ([0, 1].map (sc.component argsort 1)) (planeRay 0 (-4) (9 / 41) (40 / 41)) 8.2 1 :=
    egg_near x (a' := -73.8 / 73) (b' := 8.2) (by norm_num) (by norm_num) (by norm_num) (by norm_num) (by norm_num) (by norm_num) (by norm_num) (Or.inl (by norm_num)) (Or.inr le_rfl)
      (Or.inr rfl)
  have hnor := egg_normal x (y := 1.8) (z := 4) (ny := 5 / √41) (nz := 4 / √41) (c := 0.04 * √41) (by norm_num) (by positivity)
    (by rw [div_pow, div_pow, pow_two (√41), hq]; norm_num) (by field_simp; norm_num) (by field_simp; norm_num)
  have j1 := egg_step x (limit := 3) (Journey.start (t := Tracer.new [fun _ => [plateCol 0 (-4) (9 / 41) (40 / 41) (5 / 4) 0]] ([0, 1].map (sc.component argsort 1)) 1 3)
    (c0 := plateCol 0 (-4) (9 / 41) (40 / 41) (5 / 4) 0)) (by norm_num) n0 (y' := 1.8) (z' := 4) (dy' := 0) (dz' := 1) (n' := 1) (by norm_num) (by norm_num)
    (glassN_plateCol (by
      rw [hnor]
      have e1 : dot4 (vector 0 (9 / 41) (40 / 41)) (vector 0 (5 / √41) (4 / √41)) = 5 / √41 := by simp [dot4, vector]; ring
      have e2 : dot4 (vector 0 0 1) (vector 0 (5 / √41) (4 / √41)) = 4 / √41 := by simp [dot4, vector]
      refine refract_value (far := 1) (by simp [dot4, vector]; norm_num) (by
          simp [dot4, vector, div_mul_div_comm, hq]; norm_num) (by norm_num) (by norm_num) one_pos ?_ (by simp [dot4, vector]) ?_ ?_ ?_ ?_
      · rw [e1]; exact (if_pos (by positivity)).symm
      · unfold Spec.sinTo
        rw [e1, div_pow, pow_two (√41), hq]
        have : √(1 - (5) ^ 2 / 41) ≤ 0.7 := Real.sqrt_le_iff.2 (by norm_num)
        norm_num at this ⊢; linarith
      · intro i
        rw [e1, e2]
        fin_cases i <;> simp [vector, div_mul_div_comm, hq] <;> norm_num
      · rw [e1, e2]; intro h; positivity
      · rw [e1, e2]; intro h; exact absurd h (not_le.2 (by positivity))))
  have n1 : Nearest ([0, 1].map (sc.component argsort 1)) (planeRay (1.8 + 1e-6 * 0) (4 + 1e-6 * 1) 0 1) (-((1.8 + 1e-6 * 0) * 0 + (4 + 1e-6 * 1) * 1) + √96.76) 0 :=
    (egg_nearest x (a' := -8 - 1e-6) (b' := -1e-6) (K := √96.76) (by norm_num) (by norm_num) (by norm_num) (by norm_num) (Real.sqrt_nonneg _)
      (by rw [Real.sq_sqrt (by norm_num)]; norm_num)
      (by have : (9 : ℝ) ≤ √96.76 := Real.le_sqrt_of_sq_le (by norm_num)
          norm_num at this ⊢; linarith)
      (by have := Real.sqrt_nonneg 96.76; norm_num at this ⊢; linarith) le_rfl (Or.inl (by norm_num)) (Or.inl (by norm_num))).1 rfl
  obtain ⟨r, hr, a1, a2, a3, a4, a5, a6, a7⟩ := egg_row ha b h .start (by norm_num) n0 (by norm_num)
  obtain ⟨r', hr', b1, b2, b3, b4, b5, b6, -⟩ := egg_row ha b h j1 (by norm_num) n1 (by norm_num)
  have hF1 : point 0 0 0 + (4 : ℝ) • vector 0 0 1 = point 0 0 4 := by funext i; fin_cases i <;> simp [point, vector]
  have hF2 : point 0 0 0 - (4 : ℝ) • vector 0 0 1 = point 0 0 (-4) := by funext i; fin_cases i <;> simp [point, vector]
  have p1 : r.finish = point 0 1.8 4 := by rw [a7]; norm_num
  have hd1 : norm4 (r.finish - point 0 0 (-4)) = 8.2 := by
    rw [p1]; unfold norm4; simp [point]; norm_num
  have := C116_collimate ha b h hr hr' ⟨by rw [a1, b1], by rw [a2, b2]; push_cast; ring⟩ (egg_ends x a3) x.inner (by norm_num) (h := 4) (by norm_num) (by norm_num) rfl
    (by simp [dot4, vector]) (N := 5 / 4) (by norm_num) (by norm_num) a4 (by
      rw [p1, hnor, a6]; simp [dot4, vector]; positivity) (by rw [p1]; simp [dot4, point, vector])
    (by rw [hF2, hd1, p1, a6]; funext i; fin_cases i <;> simp [point, vector] <;> norm_num)
  exact ⟨k, t', r, r', hrun, h, hr, hr', p1, this.1, this.2.1⟩

end PyRayT
