import Verif.Props.Render3
import Verif.Props.Boundary

/-!
# Properties C70 (the grid of `draw`) and C72 (hits are in the bounding box)
-/

namespace PyRayT

open Classical Matrix

/-! ### C70 -/

/-- the axis along which a view looks -/
def Spec.depthAxis : View → Fin 3
  | .xy => 2
  | .xz => 1

/-- the direction in which the rays of a view go -/
def Spec.viewDir : View → Vec4
  | .xy => vector 0 0 (-1)
  | .xz => vector 0 1 0

theorem drawCamera_world_xy (mins maxes : Fin 3 → ℝ) (res : ℕ) (x y z w : ℝ) :
    (drawCamera .xy mins maxes res).world *ᵥ ![x, y, z, w] =
      ![-y + (maxes 0 + mins 0) / 2 * w, z + (maxes 1 + mins 1) / 2 * w, -x + 1.5 * maxes 2 * w, w] := by
  have e : (90 : ℝ) * Real.pi / 180 = Real.pi / 2 := by ring
  simp only [drawCamera, e, Real.sin_pi_div_two, Real.cos_pi_div_two]
  rw [← mulVec_mulVec, ← mulVec_mulVec]
  funext i
  fin_cases i <;> simp only [mulVec4, moveMatrix, rotYMatrix, rotZMatrix, Fin.zero_eta, Fin.mk_one, Fin.reduceFinMk, of_apply, Matrix.cons_val] <;>
    ring

theorem drawCamera_world_xz (mins maxes : Fin 3 → ℝ) (res : ℕ) (x y z w : ℝ) :
    (drawCamera .xz mins maxes res).world *ᵥ ![x, y, z, w] =
      ![-y + (maxes 0 + mins 0) / 2 * w, x + 1.5 * maxes 1 * w, z + (maxes 2 + mins 2) / 2 * w, w] := by
  have e : (90 : ℝ) * Real.pi / 180 = Real.pi / 2 := by ring
  simp only [drawCamera, e, Real.sin_pi_div_two, Real.cos_pi_div_two]
  rw [← mulVec_mulVec]
  funext i
  fin_cases i <;> simp only [mulVec4, moveMatrix, rotZMatrix, Fin.zero_eta, Fin.mk_one, Fin.reduceFinMk, of_apply, Matrix.cons_val] <;>
    ring

theorem drawCamera_rigid (view : View) (mins maxes : Fin 3 → ℝ) (res : ℕ) : Rigid (drawCamera view mins maxes res).world := by
  have e : (90 : ℝ) * Real.pi / 180 = Real.pi / 2 := by ring
  cases view
  · simp only [drawCamera, e, Real.sin_pi_div_two, Real.cos_pi_div_two]
    exact rigid_mul (move_rigid _ _ _) (rigid_mul (rotZ_rigid (by norm_num)) (rotY_rigid (by norm_num)))
  · simp only [drawCamera, e, Real.sin_pi_div_two, Real.cos_pi_div_two]
    exact rigid_mul (move_rigid _ _ _) (rotZ_rigid (by norm_num))

theorem normalize_unit {v : Vec4} (h : norm4 v = 1) : normalize v = v := by
  funext i
  rw [normalize, h, div_one]

/-- every ray of the camera of `draw`, for every resolution: the direction and the coordinate along it -/
theorem draw_rays (view : View) (mins maxes : Fin 3 → ℝ) (res : ℕ) {rays : List Ray}
    (h : (drawCamera view mins maxes res).generateRays = some rays) {r : Ray} (hr : r ∈ rays) :
    r.d = Spec.viewDir view ∧ r.o (Spec.depthAxis view).castSucc = 1.5 * maxes (Spec.depthAxis view) ∧ r.o 3 = 1 := by
  unfold Camera.generateRays at h
  split at h
  · cases h
  cases h
  obtain ⟨r0, hr0, rfl⟩ := List.mem_map.1 hr
  obtain ⟨i, -, hr1⟩ := List.mem_flatMap.1 hr0
  obtain ⟨j, -, rfl⟩ := List.mem_map.1 hr1
  simp only [Camera.localRay, point, vector]
  cases view
  · rw [drawCamera_world_xy, drawCamera_world_xy]
    refine ⟨?_, ?_, rfl⟩
    · rw [normalize_unit]
      · simp [Spec.viewDir, vector]
      · simp [norm4]
    · simp [Spec.depthAxis]
  · rw [drawCamera_world_xz, drawCamera_world_xz]
    refine ⟨?_, ?_, rfl⟩
    · rw [normalize_unit]
      · simp [Spec.viewDir, vector]
      · simp [norm4]
    · simp [Spec.depthAxis]

/-- **C70 (the grid of `draw`).** For both views and all bounds with positive extent in the plane of the image: the image has `resolution` columns if it is
wider than high; otherwise `resolution` is reduced in proportion (and rounded down). The rows follow from the aspect ratio (rounded down). The ray of row i,
column j goes in the direction of the view, from the plane at 1.5 times the upper bound; for at least two rows and columns it
is at left + j (right - left) / (columns - 1) horizontally and top - i (top - bottom) / (rows - 1) vertically, where left, right, bottom, top is the extent handed to
`imshow`. The extent is the range of the bounds with a quarter of it added on either side. -/
theorem C70_grid (view : View) (mins maxes : Fin 3 → ℝ) (resolution : ℕ) (h1 : mins view.axes.1 < maxes view.axes.1)
    (h2 : mins view.axes.2 < maxes view.axes.2) :
    let c := drawCamera view mins maxes resolution
    let e := drawExtent view mins maxes
    let sx := maxes view.axes.1 - mins view.axes.1
    let sy := maxes view.axes.2 - mins view.axes.2
    (e = (mins view.axes.1 - sx / 4, maxes view.axes.1 + sx / 4, mins view.axes.2 - sy / 4, maxes view.axes.2 + sy / 4)) ∧
    (sy < sx → c.hPixels = resolution) ∧ (sx ≤ sy → (c.hPixels : ℤ) = ⌊resolution * sx / sy⌋) ∧ c.vPixels = ⌊sy / sx * c.hPixels⌋ ∧
    ∃ rays, c.generateRays = some rays ∧ (rays.length : ℤ) = c.vPixels * c.hPixels ∧
      (2 ≤ c.hPixels → 2 ≤ c.vPixels → ∀ i j : ℕ, (i : ℤ) < c.vPixels → j < c.hPixels → ∃ r, rays[i * c.hPixels + j]? = some r ∧
        r.d = Spec.viewDir view ∧ r.o (Spec.depthAxis view).castSucc = 1.5 * maxes (Spec.depthAxis view) ∧ r.o 3 = 1 ∧
        r.o view.axes.1.castSucc = e.1 + j * ((e.2.1 - e.1) / ((c.hPixels : ℝ) - 1)) ∧
        r.o view.axes.2.castSucc = e.2.2.2 - i * ((e.2.2.2 - e.2.2.1) / ((c.vPixels : ℝ) - 1))) := by
  intro c e sx sy
  have hsx : 0 < sx := sub_pos.2 h1
  have hsy : 0 < sy := sub_pos.2 h2
  have hasp : c.aspect = sy / sx := by
    show 1.5 * sy / (1.5 * sx) = sy / sx
    rw [mul_div_mul_left _ _ (by norm_num)]
  have hw : c.hWidth = 1.5 * sx := rfl
  have hres : c.hPixels = if 1.5 * sx > 1.5 * sy then resolution else (truncInt (resolution * (1.5 * sx) / (1.5 * sy))).toNat := rfl
  have he : e = (mins view.axes.1 - sx / 4, maxes view.axes.1 + sx / 4, mins view.axes.2 - sy / 4, maxes view.axes.2 + sy / 4) := by
    simp only [e, drawExtent, sx, sy]
    refine Prod.ext ?_ (Prod.ext ?_ (Prod.ext ?_ ?_)) <;> dsimp only <;> ring
  obtain ⟨rays, hr, hv, hl, -, -, hg⟩ := C53_grid_partial c (rigid_affine (drawCamera_rigid view mins maxes resolution)) (by rw [hasp]; positivity)
  refine ⟨he, fun hlt => ?_, fun hle => ?_, ?_, rays, hr, hl, ?_⟩
  · rw [hres, if_pos (by linarith)]
  · rw [hres, if_neg (by linarith)]
    have e1 : (resolution : ℝ) * (1.5 * sx) / (1.5 * sy) = resolution * sx / sy := by field_simp
    have e2 : (0 : ℝ) ≤ resolution * sx / sy := by positivity
    rw [e1, truncInt, if_pos e2]
    exact Int.toNat_of_nonneg (Int.floor_nonneg.2 e2)
  · rw [hv, hasp]
  · intro hh hvv i j hi hj
    obtain ⟨⟨r, hr1, hr2⟩, -⟩ := hg hh hvv i j hi hj
    obtain ⟨d1, d2, d3⟩ := draw_rays view mins maxes resolution hr (List.mem_of_getElem? hr1)
    refine ⟨r, hr1, d1, d2, d3, ?_⟩
    have hasp' : c.aspect * c.hWidth = 1.5 * sy := by rw [hasp, hw]; field_simp
    rw [hr2, he, hasp', hw]
    have hh' : (2 : ℝ) ≤ c.hPixels := by exact_mod_cast hh
    have hv' : (2 : ℝ) ≤ c.vPixels := by exact_mod_cast hvv
    have n1 : (c.hPixels : ℝ) - 1 ≠ 0 := by linarith
    have n2 : (c.vPixels : ℝ) - 1 ≠ 0 := by linarith
    clear_value e
    cases view
    · simp only [c, point]
      rw [drawCamera_world_xy]
      simp only [View.axes, sx, sy, c] at n1 n2 ⊢
      constructor
      · simp
        field_simp
        ring
      · simp
        field_simp
        ring
    · simp only [c, point]
      rw [drawCamera_world_xz]
      simp only [View.axes, sx, sy, c] at n1 n2 ⊢
      constructor
      · simp
        field_simp
        ring
      · simp
        field_simp
        ring

/-- the bounds used by `draw` contain all the boxes and are attained -/
theorem C70_bounds (b : Box) (bs : List Box) (i : Fin 3) :
    (∀ x ∈ b :: bs, (drawBounds b bs i).1 ≤ (x i).1.toReal ∧ (x i).2.toReal ≤ (drawBounds b bs i).2) ∧
    (∃ x ∈ b :: bs, (drawBounds b bs i).1 = (x i).1.toReal) ∧ ∃ x ∈ b :: bs, (drawBounds b bs i).2 = (x i).2.toReal := by
  unfold drawBounds
  induction bs using List.reverseRecOn with
  | nil => simp
  | append_singleton bs c ih =>
    obtain ⟨h1, ⟨x, hx, ex⟩, ⟨y, hy, ey⟩⟩ := ih
    simp only [List.foldl_append, List.foldl_cons, List.foldl_nil] at *
    refine ⟨fun z hz => ?_, ?_, ?_⟩
    · rcases List.mem_append.1 (show z ∈ (b :: bs) ++ [c] from hz) with hz | hz
      · exact ⟨(min_le_left _ _).trans (h1 z hz).1, (h1 z hz).2.trans (le_max_left _ _)⟩
      · rw [List.mem_singleton] at hz
        subst hz
        exact ⟨min_le_right _ _, le_max_right _ _⟩
    · rcases min_choice (bs.foldl (fun m b => min m (b i).1.toReal) (b i).1.toReal) (c i).1.toReal with h | h
      · exact ⟨x, List.mem_append_left [c] hx, by rw [h, ex]⟩
      · exact ⟨c, by simp, h⟩
    · rcases max_choice (bs.foldl (fun m b => max m (b i).2.toReal) (b i).2.toReal) (c i).2.toReal with h | h
      · exact ⟨y, List.mem_append_left [c] hy, by rw [h, ey]⟩
      · exact ⟨c, by simp, h⟩

/-! ### C72 -/

variable (argsort : List EReal → List ℕ)

/-- every point that is not strictly outside a solid is in the stored box, whose bounds are finite -/
theorem not_outside_in_box (ha : IsArgsort argsort) {h : Heap} {a : ℕ} {s : Solid} (hr : Represents h a s)
    (hg : s.All fun p w => p.Valid ∧ Affine w) (hb : BoxesOk argsort h a)
    (ho : ∀ x l r, Under h a x → (h.obj x).kind = .csg .intersect l r → Spec.Overlap (h.obj l).aobb (h.obj r).aobb) :
    (∀ q : Vec4, q 3 = 1 → ¬ s.Outside q → ∀ i : Fin 3, ((h.obj a).aobb i).1 ≤ (q i.castSucc : ℝ) ∧ ((q i.castSucc : ℝ) : EReal) ≤ ((h.obj a).aobb i).2) ∧
    ∀ i, ∃ lo hi : ℝ, (h.obj a).aobb i = ((lo : EReal), (hi : EReal)) := by
  induction hr with
  | @leaf a p hk =>
    have hbox := hb.leaf a p .refl hk
    constructor
    · intro q hq hi i
      simp only [Solid.Outside] at hi
      push Not at hi
      obtain ⟨x, hx, hc⟩ := hi
      have x3 : x 3 = 1 := by rw [← affine_three hg.2 x, hx, hq]
      have h1 := box_contains (h.obj a).world p.boundSpans x x3 (fun i => closed_in_spans p hg.1 x hc i) i
      rw [hx] at h1
      rw [hbox]
      exact h1
    · intro i
      rw [hbox]
      have hf := primBox_finite (h.obj a).world p i
      have hs : (primBox (h.obj a).world p i).1 ≤ (primBox (h.obj a).world p i).2 := sort2_le _
      have n1 : (primBox (h.obj a).world p i).1 ≠ ⊤ := (lt_of_le_of_lt hs (lt_top_iff_ne_top.2 hf.2)).ne
      have n2 : (primBox (h.obj a).world p i).2 ≠ ⊥ := (lt_of_lt_of_le (bot_lt_iff_ne_bot.2 hf.1) hs).ne'
      exact ⟨_, _, Prod.ext (EReal.coe_toReal n1 hf.1).symm (EReal.coe_toReal hf.2 n2).symm⟩
  | @node a l r op sl sr hk hl hr ihl ihr =>
    have hf := hb.node a .refl op l r hk
    have pl : IsParent h a l := ⟨op, l, r, hk, Or.inl rfl⟩
    have pr : IsParent h a r := ⟨op, l, r, hk, Or.inr rfl⟩
    obtain ⟨cl, fl⟩ := ihl hg.1 (hb.child argsort pl) fun x l r hu => ho x l r (Under.trans (.step .refl pl) hu)
    obtain ⟨cr, fr⟩ := ihr hg.2 (hb.child argsort pr) fun x l r hu => ho x l r (Under.trans (.step .refl pr) hu)
    cases op with
    | union =>
      have hov := hb.over a l r .refl hk
      have e : ∀ i, (h.obj a).aobb i = (min ((h.obj l).aobb i).1 ((h.obj r).aobb i).1, max ((h.obj l).aobb i).2 ((h.obj r).aobb i).2) := fun i => by
        obtain ⟨h1, h2, h3, h4⟩ := hov i
        rw [hf]
        exact (csgBox_overlap ha _ _ i h1 h2 h3 h4).1
      constructor
      · intro q hq hi i
        rw [e]
        simp only [Solid.Outside] at hi
        rcases not_and_or.1 hi with hi | hi
        · have := cl q hq hi i
          exact ⟨(min_le_left _ _).trans this.1, this.2.trans (le_max_left _ _)⟩
        · have := cr q hq hi i
          exact ⟨(min_le_right _ _).trans this.1, this.2.trans (le_max_right _ _)⟩
      · intro i
        obtain ⟨a1, b1, e1⟩ := fl i
        obtain ⟨a2, b2, e2⟩ := fr i
        refine ⟨min a1 a2, max b1 b2, ?_⟩
        rw [e, e1, e2]
        simp only [EReal.coe_strictMono.monotone.map_min, EReal.coe_strictMono.monotone.map_max]
    | intersect =>
      have hov := ho a l r .refl hk
      have e : ∀ i, (h.obj a).aobb i = (max ((h.obj l).aobb i).1 ((h.obj r).aobb i).1, min ((h.obj l).aobb i).2 ((h.obj r).aobb i).2) := fun i => by
        obtain ⟨h1, h2, h3, h4⟩ := hov i
        rw [hf]
        exact (csgBox_overlap ha _ _ i h1 h2 h3 h4).2
      constructor
      · intro q hq hi i
        rw [e]
        simp only [Solid.Outside, not_or] at hi
        have c1 := cl q hq hi.1 i
        have c2 := cr q hq hi.2 i
        exact ⟨max_le c1.1 c2.1, le_min c1.2 c2.2⟩
      · intro i
        obtain ⟨a1, b1, e1⟩ := fl i
        obtain ⟨a2, b2, e2⟩ := fr i
        refine ⟨max a1 a2, min b1 b2, ?_⟩
        rw [e, e1, e2]
        simp only [EReal.coe_strictMono.monotone.map_min, EReal.coe_strictMono.monotone.map_max]
    | difference =>
      rw [hf]
      refine ⟨fun q hq hi => cl q hq ?_, fl⟩
      simp only [Solid.Outside, not_or] at hi
      exact hi.1

theorem Chain.under {h : Heap} {a x k : ℕ} (hc : Chain h a x k) : Under h a x := by
  induction hc with
  | refl => exact .refl
  | left _ hk ih => exact .step ih ⟨_, _, _, hk, Or.inl rfl⟩
  | right _ hk ih => exact .step ih ⟨_, _, _, hk, Or.inr rfl⟩

theorem tidy_boxesOk {fuel : ℕ} {h : Heap} (hr : TidyReaches argsort fuel Heap.empty h)
    {a : ℕ} (hlt : a < h.size) (hov : ∀ x k l r, Chain h a x k → (h.obj x).kind = .csg .union l r → Spec.Overlap (h.obj l).aobb (h.obj r).aobb) :
    BoxesOk argsort h a := by
  have hre := TidyReaches.reaches argsort hr
  have hi := reaches_inv argsort empty_inv hre
  refine boxesOk_of argsort hre hlt (fun x k op l r hc hk => ?_) hov
  exact C19_tidy_partial argsort fuel h hr x (lt_of_le_of_lt (hc.under.le hi.toStruct hlt) hlt) op l r hk

/-- What is asked of an object in C69 and C72: it is a tree of placed primitives with valid parameters, unions and intersections have operands with overlapping
boxes, and the ray is not in the tolerance band of any primitive. -/
structure Spec.Drawable (h : Heap) (a depth : ℕ) (ray : Ray) : Prop where
  lt : a < h.size
  tree : ∃ s, Represents h a s ∧ s.depth ≤ depth ∧ s.All fun p w => (p.Valid ∧ Affine w) ∧ Spec.Sees p (ray.map w⁻¹)
  over : ∀ x k op l r, Chain h a x k → (h.obj x).kind = .csg op l r → op ≠ .difference → Spec.Overlap (h.obj l).aobb (h.obj r).aobb

theorem Solid.All.mono {P Q : Prim → Mat4 → Prop} (hpq : ∀ p w, P p w → Q p w) : ∀ {s : Solid}, s.All P → s.All Q
  | .leaf _ _, h => hpq _ _ h
  | .node _ _ _, h => ⟨h.1.mono hpq, h.2.mono hpq⟩

/-- **C72.** For objects assembled from parts that are not used elsewhere (tidy histories): the bounding box has finite bounds, and every real hit distance
is a point of the ray in the bounding box. The object is a primitive or a composite of any depth in which unions and intersections have operands with overlapping
boxes, and no primitive misjudges the ray. Without the last condition it is false (`C61_C72_band_false`). -/
theorem C72_hits_in_box_partial (ha : IsStableArgsort argsort) {fuel : ℕ} {h : Heap} (hr : TidyReaches argsort fuel Heap.empty h) {a depth : ℕ} {ray : Ray}
    (hray : GoodRay ray) (hd : Spec.Drawable h a depth ray) :
    (∀ i, ∃ lo hi : ℝ, (h.obj a).aobb i = ((lo : EReal), (hi : EReal))) ∧
    ∀ t : ℝ, (t : EReal) ∈ (intersectObj argsort depth h a ray).1 → ∀ i : Fin 3,
      ((h.obj a).aobb i).1 ≤ (ray.at t i.castSucc : ℝ) ∧ ((ray.at t i.castSucc : ℝ) : EReal) ≤ ((h.obj a).aobb i).2 := by
  obtain ⟨hlt, ⟨s, hrep, hdep, hall⟩, hov⟩ := hd
  have hu : ∀ x k l r, Chain h a x k → (h.obj x).kind = .csg .union l r → Spec.Overlap (h.obj l).aobb (h.obj r).aobb :=
    fun x k l r hc hk => hov x k _ l r hc hk (by simp)
  have hin := not_outside_in_box argsort ha.1 hrep (hall.mono fun _ _ h => h.1) (tidy_boxesOk argsort hr hlt hu) fun x l r hx hk => by
    obtain ⟨k, hc⟩ := hx.chain
    exact hov x k _ l r hc hk (by simp)
  refine ⟨hin.2, fun t ht i => hin.1 _ (hray.at3 t) ?_ i⟩
  exact (C64_tidy_partial argsort ha fuel h hr a hlt s hrep hu ray hray hall depth hdep t ht).2

end PyRayT
