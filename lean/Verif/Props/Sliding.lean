import Verif.Props.Folded
import Verif.Props.Prism

/-!
# Property C122: surfaces along a common direction

The counterpart of C90 (round systems) for systems that are unchanged by shifts: what light does along a direction that lies in all surfaces it meets.
-/

namespace PyRayT

open Classical Matrix Spec

/-! ### specification -/

/-- The direction `c` lies in the surface at the place where the row ends, in the coordinates of the surface: the surface is a rectangle and `c` has no component across it; or the side of a cylinder (away
from its caps) and `c` is along the axis; or a face of a cuboid and `c` has no component across the face. The surfaces may have been moved, turned, mirrored and scaled in any way. -/
def Spec.Slides (s : Scene) (objs : List ℕ) (depth : ℕ) (c : Vec4) (r : Row) : Prop :=
  c 3 = 0 ∧ ∃ x, EndsOn s objs depth x r ∧
    match (s.heap.obj x).kind with
    | .prim (.plane _ _) => ((s.heap.obj x).world⁻¹ *ᵥ c) 2 = 0
    | .prim (.cylinder _ lo hi) => ((s.heap.obj x).world⁻¹ *ᵥ c) 0 = 0 ∧ ((s.heap.obj x).world⁻¹ *ᵥ c) 1 = 0 ∧
        ¬ isclose (((s.heap.obj x).world⁻¹ *ᵥ r.finish) 2) lo ∧ ¬ isclose (((s.heap.obj x).world⁻¹ *ᵥ r.finish) 2) hi
    | .prim (.cube p q) => ∃ (j : Fin 3) (side : Bool), OnFace p q j side ((s.heap.obj x).world⁻¹ *ᵥ r.finish) ∧ ((s.heap.obj x).world⁻¹ *ᵥ c) j.castSucc = 0
    | _ => False

/-! ### one surface -/

/-- index × (component along the surface) is conserved, whatever happens -/
theorem Spec.Interacts.along {o : Material} {lam n1 n2 : ℝ} {N u w c : Vec4} (hN : dot4 N c = 0) (h : Interacts o lam N u n1 w n2) : n1 * dot4 u c = n2 * dot4 w c := by
  have refl : (∀ i, w i = u i - 2 * dot4 u N * N i) → dot4 u c = dot4 w c := fun h => by
    generalize dot4 u N = A at h
    simp only [dot4] at hN ⊢
    simp only [h]
    linear_combination 2 * A * hN
  cases o with
  | absorber => exact h.elim
  | mirror => rw [h.2, refl h.1]
  | glass g =>
    rcases h with ⟨-, -, h, -, -, -, e⟩ | ⟨-, h, e⟩
    · rw [e]
      generalize dot4 u N = A at h
      generalize dot4 w N = B at h
      simp only [dot4] at hN ⊢
      have h0 := h 0
      have h1 := h 1
      have h2 := h 2
      have h3 := h 3
      split at h0 <;> rename_i hc <;> simp only [hc, if_true, if_false] at h1 h2 h3 ⊢
      · linear_combination c 0 * h0 + c 1 * h1 + c 2 * h2 + c 3 * h3 + (n1 * A - 1 * B) * hN
      · linear_combination c 0 * h0 + c 1 * h1 + c 2 * h2 + c 3 * h3 + (n1 * A - g.indexAt lam * B) * hN
    · rw [e, refl h]

section
variable {argsort : List EReal → List ℕ} {fuel : ℕ} {s : Scene} {objs : List ℕ} {depth : ℕ} {sources : List (ℕ → List Col)} {m : ℕ} {limit : ℤ} {k : ℕ} {f : Tracer}

/-- the product of a world normal with a direction, in the coordinates of the surface -/
theorem normal_dot {p : Prim} {x : ℕ} {pos c : Vec4} (hk : (s.heap.obj x).kind = .prim p) (ho : (s.heap.obj x).objT = (s.heap.obj x).world⁻¹) (c3 : c 3 = 0)
    (h : dot4 (p.normal ((s.heap.obj x).world⁻¹ *ᵥ pos)) ((s.heap.obj x).world⁻¹ *ᵥ c) = 0) : dot4 (surfaceNormal s.heap x pos) c = 0 := by
  simp only [surfaceNormal, hk, worldNormal]
  rw [ho]
  generalize (s.heap.obj x).world⁻¹ = A at h ⊢
  generalize p.normal (A *ᵥ pos) = v at h ⊢
  have e : dot4 (zeroW (Aᵀ *ᵥ v)) c = dot4 v (A *ᵥ c) := by
    simp [dot4, zeroW, Matrix.mulVec, dotProduct, Fin.sum_univ_four, Matrix.cons_val, c3]
    ring
  generalize zeroW (Aᵀ *ᵥ v) = w at e ⊢
  have : dot4 ((s.heap.obj x).nscale • normalize w) c = (s.heap.obj x).nscale / norm4 w * dot4 w c := by
    simp only [dot4, normalize, Pi.smul_apply, smul_eq_mul]
    ring
  rw [this, e, h, mul_zero]

theorem Spec.Slides.step (ha : IsArgsort argsort) (b : Bench argsort fuel s objs depth sources m)
    (ht : Tracer.Traces k (Tracer.new sources (objs.map (s.component argsort depth)) m limit) f) {r r1 : Row} (hr : r ∈ f.frame) (hr1 : r1 ∈ f.frame) (hf : Follows r r1)
    {c : Vec4} (h : Slides s objs depth c r) : r.index * dot4 r.dir c = r1.index * dot4 r1.dir c := by
  obtain ⟨c3, x, ⟨a, haa, id, hx, hs⟩, hk⟩ := h
  obtain ⟨-, -, hI⟩ := b.optics ha ht hr hr1 hf haa hx hs
  refine hI.along ?_
  have hinv := reaches_inv argsort empty_inv b.history.reaches
  obtain ⟨hxs, -, p, hp⟩ := surfaceIds_spec hinv depth a (b.exist a haa) _ hx
  have ho := (hinv.synced x hxs).2.1
  refine normal_dot hp ho c3 ?_
  simp only at hp
  rw [hp] at hk
  cases p with
  | sphere _ => exact hk.elim
  | paraboloid _ _ => exact hk.elim
  | plane _ _ =>
    simp only at hk
    simp [Prim.normal, dot4, vector, hk]
  | cylinder _ lo hi =>
    obtain ⟨e0, e1, h1, h2⟩ := hk
    simp only [Prim.normal, if_neg h1, if_neg h2]
    simp [dot4, vector, normalize, e0, e1]
  | cube p q =>
    obtain ⟨j, side, hon, hc⟩ := hk
    rw [cube_face_normal hon]
    fin_cases j <;> simp at hc <;> simp [dot4, hc]

/-- **C122.** Let a ray meet any number of surfaces, of any kind of glass or mirrors, that all contain the direction `c` where the ray meets them: rectangles and faces of cuboids along `c`, sides of cylinders with
axes along `c`. Whether it is refracted, reflected or totally reflected at each: index × (component of the direction along `c`) never changes. -/
theorem C122_along (ha : IsArgsort argsort) (b : Bench argsort fuel s objs depth sources m)
    (ht : Tracer.Traces k (Tracer.new sources (objs.map (s.component argsort depth)) m limit) f) {rows : ℕ → Row} {n : ℕ} (hrows : ∀ g ≤ n, rows g ∈ f.frame)
    (hfol : ∀ g < n, Follows (rows g) (rows (g + 1))) {c : Vec4} (hc : ∀ g < n, Slides s objs depth c (rows g)) :
    (rows n).index * dot4 (rows n).dir c = (rows 0).index * dot4 (rows 0).dir c := by
  induction n with
  | zero => rfl
  | succ n ih =>
    rw [← ih (fun g hg => hrows g (by omega)) (fun g hg => hfol g (by omega)) fun g hg => hc g (by omega)]
    exact ((hc n (by omega)).step ha b ht (hrows n (by omega)) (hrows (n + 1) le_rfl) (hfol n (by omega))).symm

/-- **C122, angles.** Back in a medium of the index of the start, the light makes the same angle with the common direction; and in no medium can the index be
smaller than the conserved quantity. -/
theorem C122_angle (ha : IsArgsort argsort) (b : Bench argsort fuel s objs depth sources m)
    (ht : Tracer.Traces k (Tracer.new sources (objs.map (s.component argsort depth)) m limit) f) {rows : ℕ → Row} {n : ℕ} (hrows : ∀ g ≤ n, rows g ∈ f.frame)
    (hfol : ∀ g < n, Follows (rows g) (rows (g + 1))) {c : Vec4} (hc : ∀ g < n, Slides s objs depth c (rows g)) (hunit : dot4 c c = 1) :
    ((rows n).index = (rows 0).index → dot4 (rows n).dir c = dot4 (rows 0).dir c) ∧ |(rows 0).index * dot4 (rows 0).dir c| ≤ |(rows n).index| := by
  have h := C122_along ha b ht hrows hfol hc
  have h0 := b.row_positive ha ht (hrows 0 (by omega))
  refine ⟨fun e => mul_left_cancel₀ h0.ne' (by rw [← h, e]), ?_⟩
  rw [← h, abs_mul]
  have hu := b.unit ha ht (hrows n le_rfl)
  have : |dot4 (rows n).dir c| ≤ 1 := abs_le_of_sq_le_sq' (by rw [one_pow]; exact dot4_sq_le_one hu hunit) zero_le_one |> abs_le.2
  calc |(rows n).index| * |dot4 (rows n).dir c| ≤ |(rows n).index| * 1 := mul_le_mul_of_nonneg_left this (abs_nonneg _)
    _ = _ := mul_one _

/-- **C122, stacks.** Let all surfaces be flat and parallel, perpendicular to the unit vector `a`: a stack of plates and mirrors of any number and thickness. Light that has gone through it or come back, any number of
reflections between the layers included, and is in a medium of the index of the start goes on exactly parallel to its first direction, or to the mirror image of it. -/
theorem C122_stack (ha : IsArgsort argsort) (b : Bench argsort fuel s objs depth sources m)
    (ht : Tracer.Traces k (Tracer.new sources (objs.map (s.component argsort depth)) m limit) f) {rows : ℕ → Row} {n : ℕ} (hrows : ∀ g ≤ n, rows g ∈ f.frame)
    (hfol : ∀ g < n, Follows (rows g) (rows (g + 1))) {a : Vec4} (ha3 : a 3 = 0) (haa : dot4 a a = 1) (hc : ∀ c : Vec4, c 3 = 0 → dot4 a c = 0 → ∀ g < n, Slides s objs depth c (rows g))
    (hi : (rows n).index = (rows 0).index) :
    (rows n).dir = (rows 0).dir ∨ ∀ i, (rows n).dir i = (rows 0).dir i - 2 * dot4 (rows 0).dir a * a i := by
  have h0 := b.row_positive ha ht (hrows 0 (by omega))
  have hu := b.unit ha ht (hrows 0 (by omega))
  have hv := b.unit ha ht (hrows n le_rfl)
  have key : ∀ c : Vec4, c 3 = 0 → dot4 a c = 0 → dot4 (rows n).dir c = dot4 (rows 0).dir c := fun c c3 hac =>
    mul_left_cancel₀ h0.ne' (by rw [← C122_along ha b ht hrows hfol (hc c c3 hac), hi])
  have u3 : (rows 0).dir 3 = 0 := rfl
  have v3 : (rows n).dir 3 = 0 := rfl
  generalize (rows 0).dir = u at *
  generalize (rows n).dir = v at *
  -- the components along the layers
  have tan : ∀ i, v i - dot4 v a * a i = u i - dot4 u a * a i := by
    have : v - dot4 v a • a = u - dot4 u a • a := by
      refine eq_of_dots (by simp [v3, ha3]) (by simp [u3, ha3]) fun x x3 => ?_
      have hx := key (x - dot4 a x • a) (by simp [x3, ha3]) (by
        have : dot4 a (x - dot4 a x • a) = dot4 a x - dot4 a x * dot4 a a := by simp only [dot4, Pi.sub_apply, Pi.smul_apply, smul_eq_mul]; ring
        rw [this, haa]; ring)
      have e : ∀ w : Vec4, dot4 (w - dot4 w a • a) x = dot4 w (x - dot4 a x • a) := fun w => by
        have e1 : dot4 (w - dot4 w a • a) x = dot4 w x - dot4 w a * dot4 a x := by simp only [dot4, Pi.sub_apply, Pi.smul_apply, smul_eq_mul]; ring
        have e2 : dot4 w (x - dot4 a x • a) = dot4 w x - dot4 a x * dot4 w a := by simp only [dot4, Pi.sub_apply, Pi.smul_apply, smul_eq_mul]; ring
        rw [e1, e2]; ring
      rw [e v, e u, hx]
    intro i
    simpa using congrFun this i
  have sq : dot4 v a ^ 2 = dot4 u a ^ 2 := by
    have e : ∀ w : Vec4, dot4 (w - dot4 w a • a) (w - dot4 w a • a) = dot4 w w - 2 * dot4 w a * dot4 w a + dot4 w a ^ 2 * dot4 a a := fun w => by
      have : ∀ t : ℝ, dot4 (w - t • a) (w - t • a) = dot4 w w - 2 * t * dot4 w a + t ^ 2 * dot4 a a := fun t => by
        simp only [dot4, Pi.sub_apply, Pi.smul_apply, smul_eq_mul]; ring
      exact this _
    have : dot4 (v - dot4 v a • a) (v - dot4 v a • a) = dot4 (u - dot4 u a • a) (u - dot4 u a • a) := by
      rw [show v - dot4 v a • a = u - dot4 u a • a from funext fun i => by simpa using tan i]
    rw [e, e, hu, hv, haa] at this
    linarith
  rcases sq_eq_sq_iff_eq_or_eq_neg.1 sq with h | h
  · left
    funext i
    have := tan i
    rw [h] at this
    linarith
  · right
    intro i
    have := tan i
    rw [h] at this
    linarith

end

/-- **C122, prisms.** After `equilateral_prism(side, width, m)` has been called, on any scene built before, let light of any trace with the prism among the components meet the two slanted faces of the prism any number of
times, from outside or inside, refracted, reflected or totally reflected. Then index × (component along the edge, y) never changes; light that is outside again makes the angle with the edge that it had before.
Rows in the tolerance bands of the faces and ends within the tolerance of the base are excluded, as in C92. -/
theorem C122_prism {argsort : List EReal → List ℕ} {fuel : ℕ} (hst : IsStableArgsort argsort) {s0 : Scene} (h0 : Ready argsort fuel s0) (hf : 3 ≤ fuel) {side width : ℝ} (hs : 1e-6 ≤ side)
    (hw : 1e-6 ≤ width) (o : Material) :
    ∃ s a q i j, equilateralPrism argsort fuel side width o s0 = (.ok a, s) ∧ [q, i, j].Nodup ∧
      (∀ depth, 3 ≤ depth → (surfaceIds depth s.heap a).map Prod.fst = [q, i, j]) ∧
      ∀ (objs : List ℕ) (depth : ℕ) (sources : List (ℕ → List Col)) (num : ℕ) (limit : ℤ) (k : ℕ) (t' : Tracer),
        a ∈ objs → 3 ≤ depth → Bench argsort fuel s objs depth sources num →
        Tracer.Traces k (Tracer.new sources (objs.map (s.component argsort depth)) num limit) t' →
        ∀ (rows : ℕ → Row) (n : ℕ), (∀ g ≤ n, rows g ∈ t'.frame) → (∀ g < n, Follows (rows g) (rows (g + 1))) →
          (∀ g < n, ((rows g).surface = (i : ℤ) ∨ (rows g).surface = (j : ℤ)) ∧ GoodRay (rowRay (rows g)) ∧ Spec.clearOfPrism (rowRay (rows g)) ∧
            1e-8 + 1e-5 * side < (rows g).stop 2 + √3 / 4 * side) →
          (rows n).index * (rows n).tilt 1 = (rows 0).index * (rows 0).tilt 1 ∧ ((rows n).index = (rows 0).index → (rows n).tilt 1 = (rows 0).tilt 1) := by
  obtain ⟨s, a, q, b, i, x, j, y, hrun, hb, hids, hqi, hqj, hij, -, hon, hnrm⟩ := C92_faces hst.1 h0 hf hs hw o
  refine ⟨s, a, q, i, j, hrun, by simp [hqi, hqj, hij], fun depth h3 => by simp [hids depth h3], ?_⟩
  intro objs depth sources num limit k t' haa h3 bench htr rows n hrows hfol hfaces
  have hxm : (i, x) ∈ surfaceIds depth s.heap a := by rw [hids depth h3]; simp
  have hym : (j, y) ∈ surfaceIds depth s.heap a := by rw [hids depth h3]; simp
  have ok := bench.ok hst.1 limit
  have hr0 : Reaches argsort fuel Heap.empty s.heap := bench.history.reaches
  have comp : ∀ r : Row, dot4 r.dir (vector 0 1 0) = r.tilt 1 := fun r => by simp [dot4, Row.dir, vector]
  have step : ∀ g < n, (rows g).index * (rows g).tilt 1 = (rows (g + 1)).index * (rows (g + 1)).tilt 1 := by
    intro g hg
    obtain ⟨hsf, hgood, hclear, hz⟩ := hfaces g hg
    have hρ := hrows g hg.le
    obtain ⟨d, -, hnear, hat⟩ := row_arrives ok htr hρ
    rw [← comp, ← comp]
    rcases hsf with hsf | hsf
    · have hrep := nearest_reports hst.1 hr0 bench.exist bench.distinct hnear haa hxm hsf
      rw [hsf] at hrep
      have h := (hon hst _ hgood hclear depth h3 d).2.1 hrep
      rw [hat] at h
      have hN : surfaceNormal s.heap x (rows g).finish = _ := (hnrm _ _ _ hz).1 h
      obtain ⟨-, -, hI⟩ := bench.optics hst.1 htr hρ (hrows (g + 1) hg) (hfol g hg) haa hxm hsf
      exact hI.along (by rw [hN]; simp [dot4, vector])
    · have hrep := nearest_reports hst.1 hr0 bench.exist bench.distinct hnear haa hym hsf
      rw [hsf] at hrep
      have h := (hon hst _ hgood hclear depth h3 d).2.2 hrep
      rw [hat] at h
      have hN : surfaceNormal s.heap y (rows g).finish = _ := (hnrm _ _ _ hz).2 h
      obtain ⟨-, -, hI⟩ := bench.optics hst.1 htr hρ (hrows (g + 1) hg) (hfol g hg) haa hym hsf
      exact hI.along (by rw [hN]; simp [dot4, vector])
  have all : ∀ g ≤ n, (rows g).index * (rows g).tilt 1 = (rows 0).index * (rows 0).tilt 1 := by
    intro g
    induction g with
    | zero => exact fun _ => rfl
    | succ g ih => exact fun hg => (step g hg).symm.trans (ih (by omega))
  refine ⟨all n le_rfl, fun e => ?_⟩
  have h := all n le_rfl
  rw [e] at h
  exact mul_left_cancel₀ (bench.row_positive hst.1 htr (hrows 0 (by omega))).ne' h

/-! ## Examples -/

/-- `C122_along` in a hall of mirrors: two walls along the x axis -/
example (argsort : List EReal → List ℕ) (ha : IsArgsort argsort) : ∃ (k : ℕ) (t' : Tracer) (rows : ℕ → Row), Tracer.Traces k (hallTracer argsort) t' ∧
    (∀ g ≤ 2, rows g ∈ t'.frame) ∧ (∀ g < 2, Follows (rows g) (rows (g + 1))) ∧ (∀ g < 2, Slides hall [0] 1 (vector 1 0 0) (rows g)) ∧
    (rows 2).index * dot4 (rows 2).dir (vector 1 0 0) = (rows 0).index * dot4 (rows 0).dir (vector 1 0 0) := by
  obtain ⟨k, t', rows, h, hm, hf, hs, p0, p1, p2⟩ := hall_rows argsort ha
  have hw := hall_walls p0 p1 p2 rfl
  have hworld : (hall.heap.obj 0).world = 1 := hall_obj.2.2.2.2.2
  have hsl : ∀ g < 2, Slides hall [0] 1 (vector 1 0 0) (rows g) := fun g hg => by
    refine ⟨rfl, 0, ⟨0, by simp, 0, by simp [hall_surfaces], by rw [hs g (by omega)]; rfl⟩, ?_⟩
    rw [hall_obj.1]
    refine ⟨_, true, by rw [hworld, inv_one, one_mulVec]; exact hw g (by omega), ?_⟩
    rw [hworld, inv_one, one_mulVec]
    interval_cases g <;> simp [vector]
  exact ⟨k, t', rows, h, fun g hg => hm g (by omega), fun g hg => hf g (by omega), hsl,
    C122_along ha (hall_bench argsort) h (fun g hg => hm g (by omega)) (fun g hg => hf g (by omega)) hsl⟩

/-- `C122_stack` for a plate of glass -/
example (argsort : List EReal → List ℕ) (ha : IsArgsort argsort) : ∃ (k : ℕ) (t' : Tracer) (rows : ℕ → Row), Tracer.Traces k (plateTracer argsort) t' ∧
    (∀ g ≤ 2, rows g ∈ t'.frame) ∧ (∀ g < 2, Follows (rows g) (rows (g + 1))) ∧ (rows 0).dir = vector 0 0.8 0.6 ∧
    (∀ c : Vec4, c 3 = 0 → dot4 (vector 0 0 1) c = 0 → ∀ g < 2, Slides plate [0, 1] 1 c (rows g)) ∧
    (rows 2).index = (rows 0).index ∧ ((rows 2).dir = (rows 0).dir ∨ ∀ i, (rows 2).dir i = (rows 0).dir i - 2 * dot4 (rows 0).dir (vector 0 0 1) * vector 0 0 1 i) := by
  obtain ⟨k, t', r, r', r'', h, h0, h1, h2, f0, f1, s0, s1, i0, d0, p0, p1⟩ := plate_rows argsort ha
  have hw : (plate.heap.obj 0).world = 1 := plate_zero.2.2.1
  have face : ∀ y : ℝ, |y| < 0.9 → ∀ b : Bool, OnFace ![-1, -1, -1] ![1, 1, 1] 2 b (point 0 y (if b then 1 else -1)) := by
    intro y hy b
    obtain ⟨h1, h2⟩ := abs_lt.1 hy
    have n1 : ¬ isclose y 1 := by
      unfold isclose; rw [abs_of_neg (by linarith)]; norm_num; linarith
    have n2 : ¬ isclose y (-1) := by
      unfold isclose; rw [abs_of_pos (by linarith)]; norm_num; linarith
    refine ⟨by cases b <;> simp [point], by simp [isclose]; norm_num, fun j hj => ?_⟩
    fin_cases j
    · exact ⟨by simp [point, isclose]; norm_num, by simp [point, isclose]; norm_num⟩
    · exact ⟨by simpa [point] using n2, by simpa [point] using n1⟩
    · exact absurd rfl hj
  have hsl : ∀ c : Vec4, c 3 = 0 → dot4 (vector 0 0 1) c = 0 → ∀ (ro : Row) (b : Bool), ro.surface = (0 : ℤ) → (∃ y : ℝ, |y| < 0.9 ∧ ro.finish = point 0 y (if b then 1 else -1)) →
      Slides plate [0, 1] 1 c ro := by
    intro c c3 hc ro b hs ⟨y, hy, hp⟩
    refine ⟨c3, 0, ⟨0, by simp, 0, by simp [plate_surfaces0], hs⟩, ?_⟩
    rw [plate_zero.1]
    refine ⟨2, b, by rw [hw, inv_one, one_mulVec, hp]; exact face y hy b, ?_⟩
    rw [hw, inv_one, one_mulVec]
    simpa [dot4, vector] using hc
  have hi : r''.index = 1 := by
    refine (C86_cuboid (plate_bench argsort) ha h h0 h1 h2 f0 f1 (a := 0) (x := 0) (id := 0) (by simp) (by simp [plate_surfaces0])
      (by rw [s0]; rfl) (by rw [s1]; rfl) plate_zero.1 (i := 2) (hi := false) ?_ ?_ (g := .basic (4 / 3)) (by simp [plate]) ?_ i0 ?_).2.1
    · rw [hw, inv_one, one_mulVec, p0]
      exact face _ (by norm_num) false
    · rw [hw, inv_one, one_mulVec, p1]
      exact face _ (by norm_num) true
    · simp [IndexModel.indexAt]; norm_num
    · rw [p0, d0, plate_normal (by norm_num) (Or.inr rfl)]
      simp [dot4, vector]; norm_num
  set rows : ℕ → Row := fun g => if g = 0 then r else if g = 1 then r' else r'' with hrows
  have m2 : ∀ g ≤ 2, rows g ∈ t'.frame := by intro g hg; interval_cases g <;> simpa [hrows]
  have f2 : ∀ g < 2, Follows (rows g) (rows (g + 1)) := by
    intro g hg; interval_cases g
    · exact f0
    · exact f1
  have s2 : ∀ c : Vec4, c 3 = 0 → dot4 (vector 0 0 1) c = 0 → ∀ g < 2, Slides plate [0, 1] 1 c (rows g) := by
    intro c c3 hc g hg
    interval_cases g
    · exact hsl c c3 hc r false (by rw [s0]) ⟨-0.75, by norm_num [abs_lt], by simpa using p0⟩
    · exact hsl c c3 hc r' true (by rw [s1]) ⟨0.75, by norm_num [abs_lt], by simpa using p1⟩
  have i2 : (rows 2).index = (rows 0).index := hi.trans i0.symm
  exact ⟨k, t', rows, h, m2, f2, d0, s2, i2, C122_stack ha (plate_bench argsort) h m2 f2 rfl (by simp [dot4, vector]) s2 i2⟩

/-- `C122_along` at the side of a rod of glass -/
example (argsort : List EReal → List ℕ) (ha : IsArgsort argsort) : ∃ (k : ℕ) (t' : Tracer) (r : ℕ → Row),
    Tracer.Traces k (Tracer.new [fun _ => [plateCol (-0.8) (-1.6) 0.8 0.6 1 0]] ([0, 1].map ((rodBox (.glass (.basic (4 / 3)))).component argsort 1)) 1 4) t' ∧
    r 1 ∈ t'.frame ∧ r 2 ∈ t'.frame ∧ Slides (rodBox (.glass (.basic (4 / 3)))) [0, 1] 1 (vector 0 0 1) (r 1) ∧
    (r 1).index * dot4 (r 1).dir (vector 0 0 1) = (r 2).index * dot4 (r 2).dir (vector 0 0 1) := by
  obtain ⟨k, t', r, h, hr, hf, hs, hi, hw, d0, d1, d2, d3, p0, p1, p2⟩ := rodBox_rows ha
  have b : Bench argsort 1 (rodBox (.glass (.basic (4 / 3)))) [0, 1] 1 [fun _ => [plateCol (-0.8) (-1.6) 0.8 0.6 1 0]] 1 :=
    rodBox_bench argsort (fun g hg => by cases hg; simp [IndexModel.indexAt]) (by norm_num)
  have hsl : Slides (rodBox (.glass (.basic (4 / 3)))) [0, 1] 1 (vector 0 0 1) (r 1) := by
    refine ⟨rfl, 1, rodBox_ends _ (hs 1 (by omega)), ?_⟩
    rw [show ((rodBox (.glass (.basic (4 / 3)))).heap.obj 1).kind = _ from (pair_obj _ _ _).2.1.1]
    refine ⟨by rw [rodBox_world, inv_one, one_mulVec]; rfl, by rw [rodBox_world, inv_one, one_mulVec]; rfl, ?_⟩
    rw [rodBox_world, inv_one, one_mulVec, p1]
    constructor <;> simp only [isclose, point, Matrix.cons_val] <;> norm_num [abs_le]
  exact ⟨k, t', r, h, hr 1 (by omega), hr 2 (by omega), hsl, hsl.step ha b h (hr 1 (by omega)) (hr 2 (by omega)) (hf 1 (by omega))⟩

set_option maxHeartbeats 1000000 in
/-- All hypotheses of `C122_prism`: a prism of side 2, width 1 and index 3/2 in the room, and light to the middle of a face in the direction (48, 39, 20)/65, across the cross section. Its component along the edge
inside is 3/5 divided by 3/2, or it is reflected and keeps 3/5. -/
example {argsort : List EReal → List ℕ} (hst : IsStableArgsort argsort) : ∃ s0, Ready argsort 3 s0 ∧
    ∃ s a q i j, equilateralPrism argsort 3 2 1 (.glass (.basic (3 / 2))) s0 = (.ok a, s) ∧
    (surfaceIds 3 s.heap a).map Prod.fst = [q, i, j] ∧
    ∃ (objs : List ℕ) (sources : List (ℕ → List Col)) (k : ℕ) (t' : Tracer),
      Bench argsort 3 s objs 3 sources 1 ∧ a ∈ objs ∧ Tracer.Traces k (Tracer.new sources (objs.map (s.component argsort 3)) 1 5) t' ∧
      ∃ rows : ℕ → Row, (∀ g ≤ 1, rows g ∈ t'.frame) ∧ (∀ g < 1, Follows (rows g) (rows (g + 1))) ∧
        (∀ g < 1, ((rows g).surface = (i : ℤ) ∨ (rows g).surface = (j : ℤ)) ∧ GoodRay (rowRay (rows g)) ∧ Spec.clearOfPrism (rowRay (rows g)) ∧
            1e-8 + 1e-5 * 2 < (rows g).stop 2 + √3 / 4 * 2) ∧ (rows 0).tilt 1 = 3 / 5 ∧ (rows 1).index * (rows 1).tilt 1 = 3 / 5 := by
  obtain ⟨k2, k0⟩ := sqrt_three
  have ka : √3 < 1.74 := by rw [Real.sqrt_lt' (by norm_num)]; norm_num
  have kb : 1.73 < √3 := by rw [Real.lt_sqrt (by norm_num)]; norm_num
  obtain ⟨s0, -, h0, hsz, hk0, hw0, hm0⟩ := room_made (argsort := argsort) (fuel := 3)
  refine ⟨s0, h0, ?_⟩
  obtain ⟨s, a, q, b', i, x, j, y, hrun, hb, hids, hqi, hqj, hij, ⟨hmb, hmx, hmy⟩, hon, hnrm⟩ := C92_faces hst.1 h0 le_rfl (side := 2) (width := 1) (by norm_num) (by norm_num)
    (.glass (.basic (3 / 2)))
  obtain ⟨T, rfl, c⟩ := (prism_makes h0 le_rfl 2 1 (.glass (.basic (3 / 2)))).of_run hrun
  have hdepth : (prismMade 2 1 (.glass (.basic (3 / 2)))).depth ≤ 2 + 1 := by simp [prismMade, Made.depth]
  set ray : Ray := ⟨point (-1 / 2 - 48 / 65) (-3 / 5) (-4 / 13), vector (48 / 65) (3 / 5) (4 / 13)⟩ with hray
  set col : Col := ⟨ray, 0, 100, 0.633, 1, 0⟩ with hcol
  have hmt : ∀ l ∈ (prismMade 2 1 (.glass (.basic (3 / 2)))).leaves, l.2.2.2 = some (.glass (.basic (3 / 2))) := by
    rw [prism_leaves]; simp
  have b : Bench argsort 3 s [T.root, 0] 3 [fun _ => [col]] 1 := by
    refine room_bench hsz hk0 hm0 c hdepth ?_ hmt ?_ ?_ ?_
    · rw [prism_leaves]
      simp [Sized, cutBlock]
    · exact ⟨rfl, rfl, rfl, by simp [hcol, hray, norm4, vector]; norm_num⟩
    · exact one_pos
    · rintro g hg
      cases hg
      show (0 : ℝ) < 3 / 2
      norm_num
  have hkp : (s.heap.obj 0).kind = .prim (.sphere 1000) := (c.old 0 hsz).1.trans hk0
  have hTp : (s.heap.obj 0).objT = 1 := by
    have hinv := reaches_inv argsort empty_inv b.history.reaches
    rw [(hinv.synced 0 (b.exist 0 (by simp))).2.1, (c.old 0 hsz).2.1, hw0, inv_one]
  have hmat : ∀ e ∈ surfaceIds 3 s.heap T.root, s.material e.2 ≠ .absorber := by
    intro e he
    rw [c.material hdepth hmt e he]
    simp
  obtain ⟨k, t', htr, -, -, -⟩ := C26_terminates (Tracer.new [fun _ => [col]] ([T.root, 0].map (s.component argsort 3)) 1 5) (by simp [Tracer.new]) (by simp [Tracer.new])
    (by simp [Tracer.new, hcol])
  have ok := b.ok hst.1 5
  refine ⟨s, T.root, q, i, j, hrun, by simp [hids 3 le_rfl], [T.root, 0], _, k, t', b, by simp, htr, ?_⟩
  have hat : ∀ t, ray.at t 0 = -1 / 2 + 48 / 65 * (t - 1) ∧ ray.at t 1 = 3 / 5 * (t - 1) ∧ ray.at t 2 = 4 / 13 * (t - 1) := by
    intro t
    refine ⟨?_, ?_, ?_⟩ <;> simp [Ray.at, hray, point, vector] <;> ring
  have hgood : GoodRay ray := by
    refine ⟨rfl, rfl, ⟨.inr ?_, .inr ?_, .inr ?_⟩, .inl ?_⟩ <;> simp [hray, vector] <;> norm_num [abs_of_pos]
  have hclear : Spec.clearOfPrism ray := by
    have a1 : 0 < √3 / 2 * (48 / 65) + 1 / 2 * (4 / 13) := by positivity
    refine ⟨.inr ?_, .inr ?_, .inr ?_, .inr ?_⟩
    · show 1e-8 < |√3 / 2 * (48 / 65) + 1 / 2 * (4 / 13)|
      rw [abs_of_pos (by linarith)]; linarith
    · show 1e-8 < |√3 / 2 * (48 / 65) - 1 / 2 * (4 / 13)|
      rw [abs_of_pos (by linarith)]; linarith
    · show 1e-8 < |√3 / 2 * (4 / 13) + 1 / 2 * (48 / 65)|
      rw [abs_of_pos (by linarith)]; linarith
    · show 1e-8 < |√3 / 2 * (4 / 13) - 1 / 2 * (48 / 65)|
      rw [abs_of_neg (by linarith)]; linarith
  obtain ⟨id0, hnear0, hrep0⟩ := hb.entry hst hgood hclear (depth := 3) le_rfl (d := 1) (d' := 5 / 4) one_pos (by norm_num)
    (by
      intro t t0 t1
      obtain ⟨e0, e1, e2⟩ := hat t
      right; right
      rw [e0, e2, abs_of_neg (by linarith)]
      nlinarith)
    (by
      intro t t0 t1
      obtain ⟨e0, e1, e2⟩ := hat t
      refine ⟨by rw [e1, abs_of_pos (by linarith)]; linarith, ?_, ?_⟩
      · rw [e2]; nlinarith
      · rw [e0, e2, abs_of_neg (by linarith)]; nlinarith)
  have hhit : ((1 : ℝ) : EReal) ∈ (intersectObj argsort 3 s.heap T.root ray).1 := by
    obtain ⟨m, hm, -⟩ := hrep0
    exact List.mem_of_getElem? hm
  rcases C89_starts b hst.1 htr (i := 0) (c := col) rfl with ⟨r, hr, g0, -, hray0, hwl, hi0⟩ | hmiss
  swap
  · exact absurd ⟨by exact_mod_cast (by norm_num : (0 : ℝ) < 1), EReal.coe_lt_top _⟩ (hmiss (s.component argsort 3 T.root) (by simp) _ hhit)
  have hray0 : rowRay r = ray := hray0
  have ho : ∀ l : Fin 3, r.start l = ray.o l.castSucc := fun l => by
    rw [← hray0]; fin_cases l <;> rfl
  have hsm : ∀ l, |r.start l| ≤ 20 := by
    intro l
    rw [ho l]
    fin_cases l <;> simp [hray, point] <;> norm_num [abs_le]
  obtain ⟨⟨e, he, hse⟩, r', hr', hf⟩ := room_step b hst.1 htr hkp hTp hr (fun e he _ => hmat e he) hsm ⟨1, one_pos, by norm_num, by rw [hray0]; exact hhit⟩
    (by rw [g0]; norm_num)
  obtain ⟨d, d0, hnr, hatd⟩ := row_arrives ok htr hr
  have hrep := nearest_reports hst.1 b.history.reaches b.exist b.distinct hnr (a := T.root) (by simp) he hse
  rw [hray0] at hnr hatd hrep
  have hd1 : d = 1 := by
    apply le_antisymm
    · exact EReal.coe_le_coe_iff.1 (hnr.2.1 (s.component argsort 3 T.root) (by simp [Tracer.new]) ((1 : ℝ) : EReal) hhit (by exact_mod_cast (by norm_num : (0 : ℝ) < 1)))
    · obtain ⟨m, hm, -⟩ := hrep
      exact EReal.coe_le_coe_iff.1 (hnear0.2.1 (s.component argsort 3 T.root) (by simp) (d : EReal) (List.mem_of_getElem? hm) (by exact_mod_cast d0))
  rw [hd1] at hrep hatd
  obtain ⟨p0, p1, p2⟩ := hat 1
  have hstop : ∀ l : Fin 3, r.stop l = ray.at 1 l.castSucc := fun l => by
    rw [hatd]; fin_cases l <;> rfl
  have q2 : r.stop 2 = 0 := by rw [hstop 2]; exact p2.trans (by norm_num)
  obtain ⟨f1, f2, f3⟩ := hon hst ray hgood hclear 3 le_rfl 1
  rw [p1, p2] at f1
  rw [p0, p1, p2] at f2 f3
  have hes : r.surface = (i : ℤ) := by
    rw [hids 3 le_rfl] at he
    simp only [List.mem_cons, List.not_mem_nil, or_false] at he
    rcases he with rfl | rfl | rfl
    · rw [hse] at hrep
      rcases f1 hrep with h | h
      · norm_num at h
      · linarith
    · exact hse
    · rw [hse] at hrep
      have h := (f3 hrep).1
      linarith
  have htilt : r.tilt 1 = 3 / 5 := by
    show (rowRay r).d 1 = _
    rw [hray0]; rfl
  set rows : ℕ → Row := fun g => if g = 0 then r else r' with hrows
  have m1 : ∀ g ≤ 1, rows g ∈ t'.frame := by intro g hg; interval_cases g <;> simpa [hrows]
  have m2 : ∀ g < 1, Follows (rows g) (rows (g + 1)) := by intro g hg; interval_cases g; exact hf
  have m3 : ∀ g < 1, ((rows g).surface = (i : ℤ) ∨ (rows g).surface = (j : ℤ)) ∧ GoodRay (rowRay (rows g)) ∧ Spec.clearOfPrism (rowRay (rows g)) ∧
      1e-8 + 1e-5 * 2 < (rows g).stop 2 + √3 / 4 * 2 := by
    intro g hg
    interval_cases g
    exact ⟨.inl hes, by show GoodRay (rowRay r); rwa [hray0], by show Spec.clearOfPrism (rowRay r); rwa [hray0], by show _ < r.stop 2 + _; rw [q2]; linarith⟩
  refine ⟨rows, m1, m2, m3, htilt, ?_⟩
  obtain ⟨s', a', q', i', j', hrun', -, hids', H⟩ := C122_prism hst h0 le_rfl (side := 2) (width := 1) (by norm_num) (by norm_num) (.glass (.basic (3 / 2)))
  rw [hrun] at hrun'
  simp only [Prod.mk.injEq, Except.ok.injEq] at hrun'
  obtain ⟨rfl, rfl⟩ := hrun'
  have hl := hids' 3 le_rfl
  simp only [hids 3 le_rfl, List.map_cons, List.map_nil, List.cons.injEq, and_true] at hl
  obtain ⟨rfl, rfl, rfl⟩ := hl
  have := (H [T.root, 0] 3 _ 1 5 k t' (by simp) le_rfl b htr rows 1 m1 m2 m3).1
  rw [this, show (rows 0).index = 1 from hi0, one_mul]
  exact htilt

end PyRayT
