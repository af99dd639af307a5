import Verif.Props.Render2

/-!
# Properties C67 (outlines), C68 (shaded images) and C71 (render)
-/

namespace PyRayT

open Classical Matrix

/-! ### C71 -/

theorem stInteract_shaded {r : Renderer} (hs : r.shaded = true) : r.stInteract =
    some { r with results := some (shadedImage r.camera r.shapes r.rays r.hits), phase := .finish } := by
  simp [Renderer.stInteract, hs]

theorem stInteract_edge {r : Renderer} (hs : ¬ r.shaded = true) : r.stInteract =
    (edgeImage r.camera r.hits).map fun im => { r with results := some im, phase := .finish } := by
  simp only [Renderer.stInteract, hs]
  cases edgeImage r.camera r.hits <;> rfl

/-- the state after `render()` -/
theorem renders_eq {n : ℕ} {r r' : Renderer} (h : Renderer.Renders n r r') : n = 4 ∧ ∃ rays im, r.camera.generateRays = some rays ∧
    r' = { r with phase := .idle, complete := true, results := some im, rays, hits := rays.map (renderHit r.shapes) } ∧
    (r.shaded = true → im = shadedImage r.camera r.shapes rays (rays.map (renderHit r.shapes))) ∧
    (r.shaded = false → edgeImage r.camera (rays.map (renderHit r.shapes)) = some im) := by
  unfold Renderer.Renders at h
  cases h with
  | stop h => cases h
  | step _ h1 h =>
    simp only [Renderer.step, Renderer.stInitialize] at h1
    split at h1
    · cases h1
    rename_i rays hr
    cases h1
    cases h with
    | stop h => cases h
    | step _ h2 h =>
      simp only [Renderer.step] at h2
      cases h2
      cases h with
      | stop h => cases h
      | step _ h3 h =>
        change Renderer.stInteract _ = _ at h3
        by_cases hs : r.shaded = true
        · rw [stInteract_shaded (by exact hs)] at h3
          cases h3
          cases h with
          | stop h => cases h
          | step _ h4 h =>
            simp only [Renderer.step] at h4
            cases h4
            cases h with
            | stop h => exact ⟨rfl, rays, _, hr, rfl, fun _ => rfl, fun hn => by rw [hs] at hn; cases hn⟩
            | step hne _ _ => exact absurd rfl hne
        · rw [stInteract_edge (by exact hs), Option.map_eq_some_iff] at h3
          obtain ⟨im, he, h3⟩ := h3
          subst h3
          cases h with
          | stop h => cases h
          | step _ h4 h =>
            simp only [Renderer.step] at h4
            cases h4
            cases h with
            | stop h => exact ⟨rfl, rays, im, hr, rfl, fun hn => absurd hn hs, fun _ => he⟩
            | step hne _ _ => exact absurd rfl hne

/-- **C71 (render).** Whatever was done with a renderer before: `render()` returns if and only if the camera has no negative number of rows and, for
an outline, at least one row; it takes four steps of the state machine, leaves camera and shapes as they are and the renderer idle and complete; and
renderers of the same kind with the same camera and shapes return the same image, so rendering again gives the same image. -/
theorem C71_render (r : Renderer) :
    ((∃ n r', Renderer.Renders n r r') ↔ 0 ≤ r.camera.vPixels ∧ (r.shaded = false → 1 ≤ r.camera.vPixels)) ∧
    ∀ n r', Renderer.Renders n r r' → n = 4 ∧ r'.camera = r.camera ∧ r'.shapes = r.shapes ∧ r'.shaded = r.shaded ∧ r'.phase = .idle ∧ r'.complete = true ∧
      (∃ im, r'.results = some im) ∧
      ∀ (q q' : Renderer) (m : ℕ), q.camera = r.camera → q.shapes = r.shapes → q.shaded = r.shaded → Renderer.Renders m q q' → q'.results = r'.results := by
  constructor
  · constructor
    · rintro ⟨n, r', h⟩
      obtain ⟨-, rays, im, hr, -, -, h2⟩ := renders_eq h
      have h0 : 0 ≤ r.camera.vPixels := by
        by_contra hc
        rw [Camera.generateRays, if_pos (by omega)] at hr
        cases hr
      refine ⟨h0, fun hs => ?_⟩
      have := h2 hs
      rw [edgeImage] at this
      by_contra hc
      rw [if_pos (by omega)] at this
      cases this
    · rintro ⟨h0, h1⟩
      obtain ⟨rays, hr⟩ : ∃ rays, r.camera.generateRays = some rays := ⟨_, if_neg (by omega)⟩
      set r1 : Renderer := { r with phase := .propagate, complete := false, results := none, rays := rays } with hr1
      have e1 : Renderer.step { r with phase := .initialize } = some r1 := by
        simp only [Renderer.step, Renderer.stInitialize, hr]
        rfl
      obtain ⟨r3, e3, p3⟩ : ∃ r3, r1.stPropagate.step = some r3 ∧ r3.phase = .finish := by
        show ∃ r3, r1.stPropagate.stInteract = some r3 ∧ r3.phase = .finish
        by_cases hs : r.shaded = true
        · exact ⟨_, stInteract_shaded hs, rfl⟩
        · have hv := h1 (by simpa using hs)
          obtain ⟨im, he⟩ : ∃ im, edgeImage r1.stPropagate.camera r1.stPropagate.hits = some im :=
            ⟨_, if_neg (show ¬ r.camera.vPixels.toNat = 0 by omega)⟩
          rw [stInteract_edge (by exact hs), he]
          exact ⟨_, rfl, rfl⟩
      refine ⟨4, r3.stFinish, .step (by simp) e1 (.step (by simp [hr1]) rfl (.step (by simp [Renderer.stPropagate]) e3 (.step (by rw [p3]; simp) ?_ (.stop rfl))))⟩
      simp only [Renderer.step, p3]
  · intro n r' h
    obtain ⟨hn, rays, im, hr, e, h1, h2⟩ := renders_eq h
    subst e
    refine ⟨hn, rfl, rfl, rfl, rfl, rfl, ⟨im, rfl⟩, fun q q' m hc hsh hs hq => ?_⟩
    obtain ⟨-, rays', im', hr', e', h1', h2'⟩ := renders_eq hq
    subst e'
    rw [hc] at hr' h1' h2'
    rw [hsh, hs] at h1' h2'
    rw [hr] at hr'
    cases hr'
    show some im' = some im
    by_cases hk : r.shaded = true
    · rw [h1 hk, h1' hk]
    · have hk' : r.shaded = false := by simpa using hk
      rw [← h2 hk', ← h2' hk']

/-- non-vacuity of C71: a renderer with four columns and two rows, and no shapes -/
example : ∃ r', Renderer.Renders 4 ⟨false, ⟨4, 1, 0.5, 1⟩, [], .interact, true, none, [], []⟩ r' := by
  obtain ⟨h1, h2⟩ := C71_render ⟨false, ⟨4, 1, 0.5, 1⟩, [], .interact, true, none, [], []⟩
  have hv : Camera.vPixels ⟨4, 1, 0.5, 1⟩ = 2 := by
    simp only [Camera.vPixels, truncInt]
    norm_num
  obtain ⟨n, r', h⟩ := h1.2 (by rw [hv]; norm_num)
  obtain ⟨rfl, -⟩ := h2 n r' h
  exact ⟨r', h⟩

/-! ### C67 -/

/-- the surface at a pixel differs from the one at the pixel left of it or above it; there is background (-1) outside the image -/
def Spec.Differs (hit : ℕ → ℕ → ℤ) (i j : ℕ) : Prop :=
  hit i j ≠ (if j = 0 then -1 else hit i (j - 1)) ∨ hit i j ≠ (if i = 0 then -1 else hit (i - 1) j)

/-- such a pixel is at most `k` rows and `k` columns away -/
def Spec.NearEdge (v h : ℕ) (hit : ℕ → ℕ → ℤ) (k i j : ℕ) : Prop :=
  ∃ i' j', i' < v ∧ j' < h ∧ |(i : ℤ) - i'| ≤ k ∧ |(j : ℤ) - j'| ≤ k ∧ Spec.Differs hit i' j'

theorem edgeDiff_ne {hit : ℕ → ℕ → ℤ} {i j : ℕ} : edgeDiff hit i j ≠ 0 ↔ Spec.Differs hit i j := by
  unfold edgeDiff Spec.Differs
  generalize (if j = 0 then -1 else hit i (j - 1)) = a
  generalize (if i = 0 then -1 else hit (i - 1) j) = b
  have h1 := abs_nonneg (hit i j - a)
  have h2 := abs_nonneg (hit i j - b)
  constructor
  · intro h
    by_contra hc
    push Not at hc
    rw [← hc.1, ← hc.2] at h
    simp at h
  · rintro (h | h) h0
    · have : |hit i j - a| = 0 := by omega
      exact h (by rw [abs_eq_zero] at this; omega)
    · have : |hit i j - b| = 0 := by omega
      exact h (by rw [abs_eq_zero] at this; omega)

theorem step_towards {v k i i' : ℕ} (hi : i < v) (hi' : i' < v) (h : |(i : ℤ) - i'| ≤ (k : ℤ) + 1) :
    ∃ i1, i1 < v ∧ i1 ≤ i + 1 ∧ i ≤ i1 + 1 ∧ |(i1 : ℤ) - i'| ≤ k := by
  rw [abs_le] at h
  rcases lt_trichotomy i i' with hlt | rfl | hlt
  · refine ⟨i + 1, by omega, by omega, by omega, ?_⟩
    rw [abs_le]
    push_cast
    omega
  · exact ⟨i, hi, by omega, by omega, by simp⟩
  · obtain ⟨m, rfl⟩ : ∃ m, i = m + 1 := ⟨i - 1, by omega⟩
    refine ⟨m, by omega, by omega, by omega, ?_⟩
    rw [abs_le]
    push_cast at h
    omega

theorem dilate_iterate {v h : ℕ} (f : ℕ → ℕ → Prop) : ∀ (k i j : ℕ), i < v → j < h → ((dilate v h)^[k] f i j ↔
    ∃ i' j', i' < v ∧ j' < h ∧ |(i : ℤ) - i'| ≤ k ∧ |(j : ℤ) - j'| ≤ k ∧ f i' j') := by
  intro k
  induction k with
  | zero =>
    intro i j hi hj
    simp only [Function.iterate_zero, id_eq]
    constructor
    · intro hf
      exact ⟨i, j, hi, hj, by simp, by simp, hf⟩
    · rintro ⟨i', j', -, -, h1, h2, hf⟩
      have e1 : i' = i := by rw [abs_le] at h1; omega
      have e2 : j' = j := by rw [abs_le] at h2; omega
      subst e1; subst e2
      exact hf
  | succ k ih =>
    intro i j hi hj
    rw [Function.iterate_succ_apply']
    constructor
    · rintro ⟨i1, j1, hi1, hj1, a, b, c, d, hf⟩
      obtain ⟨i', j', hi', hj', h1, h2, hf⟩ := (ih i1 j1 hi1 hj1).1 hf
      rw [abs_le] at h1 h2
      refine ⟨i', j', hi', hj', ?_, ?_, hf⟩ <;> rw [abs_le] <;> push_cast <;> constructor <;> omega
    · rintro ⟨i', j', hi', hj', h1, h2, hf⟩
      push_cast at h1 h2
      obtain ⟨i1, a1, a2, a3, a4⟩ := step_towards hi hi' h1
      obtain ⟨j1, b1, b2, b3, b4⟩ := step_towards hj hj' h2
      exact ⟨i1, j1, a1, b1, a2, a3, b2, b3, (ih i1 j1 a1 b1).2 ⟨i', j', hi', hj', a4, b4, hf⟩⟩

theorem generateRays_length {c : Camera} {rays : List Ray} (h : c.generateRays = some rays) : rays.length = c.vPixels.toNat * c.hPixels := by
  unfold Camera.generateRays at h
  split at h
  · cases h
  cases h
  simp [Camera.localRays, List.length_flatMap]

theorem pixel_lt {v h i j : ℕ} (hi : i < v) (hj : j < h) : i * h + j < v * h :=
  calc i * h + j < i * h + h := by omega
    _ = (i + 1) * h := by ring
    _ ≤ v * h := Nat.mul_le_mul_right h hi

theorem hits_getD {shapes : List Shape} {rays : List Ray} {k : ℕ} (hk : k < rays.length) :
    (rays.map (renderHit shapes)).getD k (⊤, -1) = renderHit shapes (rays.getD k ⟨0, 0⟩) := by
  rw [List.getD_eq_getElem _ _ (by simpa using hk), List.getD_eq_getElem _ _ hk, List.getElem_map]

/-- **C67 (outlines).** The image of an `EdgeRender` has the resolution of the camera. With k = 1, or the larger side of the image divided by 300 if that
is more, a pixel is opaque black if a pixel at most k rows and k columns away shows another surface than the pixel left of it or above it (with background
outside the image), and transparent otherwise. What a pixel shows is what the renderer records for its ray (C54). -/
theorem C67_outline {n : ℕ} {r r' : Renderer} (hs : r.shaded = false) (h : Renderer.Renders n r r') :
    ∃ rays im, r.camera.generateRays = some rays ∧ r'.results = some im ∧ (im.rows : ℤ) = r.camera.vPixels ∧ im.cols = r.camera.hPixels ∧
      let hit := fun i j => (renderHit r.shapes (rays.getD (i * im.cols + j) ⟨0, 0⟩)).2
      let k := max 1 (max im.rows im.cols / 300)
      ∀ i < im.rows, ∀ j < im.cols, (Spec.NearEdge im.rows im.cols hit k i j → im.px i j = ![0, 0, 0, 1]) ∧
        (¬ Spec.NearEdge im.rows im.cols hit k i j → im.px i j = ![1, 1, 1, 0]) := by
  have hv := ((C71_render r).1.1 ⟨n, r', h⟩).1
  obtain ⟨-, rays, im, hr, e, -, h2⟩ := renders_eq h
  have hl := generateRays_length hr
  have he := h2 hs
  subst e
  refine ⟨rays, im, hr, rfl, ?_⟩
  simp only [edgeImage] at he
  split at he
  · cases he
  cases he
  refine ⟨Int.toNat_of_nonneg hv, rfl, ?_⟩
  intro hit k i hi j hj
  have key : edgeMask r.camera.vPixels.toNat r.camera.hPixels
      (fun i j => ((rays.map (renderHit r.shapes)).getD (i * r.camera.hPixels + j) (⊤, -1)).2) i j ↔
      Spec.NearEdge r.camera.vPixels.toNat r.camera.hPixels hit k i j := by
    unfold edgeMask
    rw [dilate_iterate _ _ _ _ hi hj]
    unfold Spec.NearEdge
    refine exists_congr fun i' => exists_congr fun j' => and_congr_right fun hi' => and_congr_right fun hj' => and_congr_right fun _ => and_congr_right fun _ => ?_
    rw [edgeDiff_ne]
    have e : ∀ a b, a < r.camera.vPixels.toNat → b < r.camera.hPixels →
        ((rays.map (renderHit r.shapes)).getD (a * r.camera.hPixels + b) (⊤, -1)).2 = hit a b := by
      intro a b ha hb
      rw [hits_getD (by rw [hl]; exact pixel_lt ha hb)]
    unfold Spec.Differs
    beta_reduce
    rw [e i' j' hi' hj']
    have e1 : (if j' = 0 then -1 else ((rays.map (renderHit r.shapes)).getD (i' * r.camera.hPixels + (j' - 1)) (⊤, -1)).2) =
        if j' = 0 then -1 else hit i' (j' - 1) := by
      split
      · rfl
      · exact e _ _ hi' (lt_of_le_of_lt (Nat.sub_le _ _) hj')
    have e2 : (if i' = 0 then -1 else ((rays.map (renderHit r.shapes)).getD ((i' - 1) * r.camera.hPixels + j') (⊤, -1)).2) =
        if i' = 0 then -1 else hit (i' - 1) j' := by
      split
      · rfl
      · exact e _ _ (lt_of_le_of_lt (Nat.sub_le _ _) hi') hj'
    rw [e1, e2]
  constructor
  · intro hn
    exact if_pos (key.2 hn)
  · intro hn
    exact if_neg fun hc => hn (key.1 hc)

/-- the outline of a surface filling the whole image is drawn along the upper and the left border only -/
example : (∀ i j, Spec.NearEdge 100 200 (fun _ _ => 7) 1 i j ↔ (i ≤ 1 ∧ j ≤ 200) ∨ (j ≤ 1 ∧ i ≤ 100)) := by
  intro i j
  have hd : ∀ i' j', Spec.Differs (fun _ _ => 7) i' j' ↔ i' = 0 ∨ j' = 0 := by
    intro i' j'
    unfold Spec.Differs
    by_cases h1 : i' = 0 <;> by_cases h2 : j' = 0 <;> simp [h1, h2]
  unfold Spec.NearEdge
  simp only [hd]
  constructor
  · rintro ⟨i', j', hi, hj, h1, h2, rfl | rfl⟩ <;> rw [abs_le] at h1 h2 <;> omega
  · rintro (⟨h1, h2⟩ | ⟨h1, h2⟩)
    · refine ⟨0, min j 199, by norm_num, by omega, ?_, ?_, .inl rfl⟩ <;> rw [abs_le] <;> omega
    · refine ⟨min i 99, 0, by omega, by norm_num, ?_, ?_, .inr rfl⟩ <;> rw [abs_le] <;> omega

/-! ### C68 -/

theorem shadePass_none {lut : List (ℤ × (Ray → ℝ → Vec4))} {ray : Ray} {hit : EReal × ℤ} (h : ∀ e ∈ lut, hit.2 ≠ e.1) : shadePass lut ray hit = 0 := by
  induction lut using List.reverseRecOn with
  | nil => rfl
  | append_singleton l e ih =>
    have := ih fun e he => h e (List.mem_append_left _ he)
    unfold shadePass at this ⊢
    rw [List.foldl_append, this, List.foldl_cons, List.foldl_nil, if_neg (h e (by simp))]

theorem shadePass_some {lut : List (ℤ × (Ray → ℝ → Vec4))} (hnd : (lut.map Prod.fst).Nodup) {ray : Ray} {hit : EReal × ℤ} {f : Ray → ℝ → Vec4}
    (h : (hit.2, f) ∈ lut) : shadePass lut ray hit = f ray hit.1.toReal := by
  induction lut using List.reverseRecOn with
  | nil => cases h
  | append_singleton l e ih =>
    rw [List.map_append, List.nodup_append] at hnd
    have step : shadePass (l ++ [e]) ray hit = if hit.2 = e.1 then e.2 ray hit.1.toReal else shadePass l ray hit := by
      unfold shadePass
      rw [List.foldl_append, List.foldl_cons, List.foldl_nil]
    rw [step]
    rcases List.mem_append.1 h with h | h
    · have hne : hit.2 ≠ e.1 := hnd.2.2 hit.2 (List.mem_map.2 ⟨_, h, rfl⟩) e.1 (by simp)
      rw [if_neg hne]
      exact ih hnd.1 h
    · simp only [List.mem_singleton] at h
      subst h
      rw [if_pos rfl]

/-- what is recorded comes from one of the shapes -/
theorem renderHit_from {cs : List Shape} {ray : Ray} (hlen : ∀ c ∈ cs, (c.intersect ray).2.length = (c.intersect ray).1.length) :
    renderHit cs ray = (⊤, -1) ∨ (renderHit cs ray).1 ≠ ⊤ ∧ ∃ c ∈ cs, ∃ i : ℕ, (c.intersect ray).1[i]? = some (renderHit cs ray).1 ∧
      (c.intersect ray).2[i]? = some (renderHit cs ray).2 := by
  induction cs using List.reverseRecOn with
  | nil => exact .inl rfl
  | append_singleton cs c ih =>
    rw [renderHit_concat]
    split
    · rename_i hlt
      right
      refine ⟨(lt_of_lt_of_le hlt le_top).ne, c, by simp, argmin ((c.intersect ray).1.map positiveHit), ?_⟩
      have hne : (nearestRendered (c.intersect ray)).1 ≠ ⊤ := (lt_of_lt_of_le hlt le_top).ne
      have hk : argmin ((c.intersect ray).1.map positiveHit) < (c.intersect ray).1.length := by
        by_contra hc
        apply hne
        simp only [nearestRendered]
        rw [List.getD_eq_default _ _ (not_lt.1 hc)]
      have hk2 := hk
      rw [← hlen c (by simp)] at hk2
      simp only [nearestRendered]
      rw [List.getD_eq_getElem _ _ hk, List.getD_eq_getElem _ _ hk2, List.getElem?_eq_getElem hk, List.getElem?_eq_getElem hk2]
      exact ⟨rfl, rfl⟩
    · rcases ih fun c hc => hlen c (List.mem_append_left _ hc) with h | ⟨h1, c', hc', h⟩
      · exact .inl h
      · exact .inr ⟨h1, c', List.mem_append_left _ hc', h⟩

variable (argsort : List EReal → List ℕ)

/-- **C68 (shaded images).** Objects of any kind built by any history, no surface of which occurs twice: the image of a `ShadedRenderer` has the
resolution of the camera. A pixel for whose ray nothing is recorded is transparent black. Otherwise what is recorded is a hit of one surface of one of the
objects, found by this surface's own `intersect`, and the pixel has the colour that the material of this surface has (C55) at that point of the ray for
the normal of this surface there; it is opaque if the colours of the material are. -/
theorem C68_shaded (ha : IsArgsort argsort) {fuel : ℕ} {h : Heap} (hr : Reaches argsort fuel Heap.empty h) {objs : List ℕ} (hlt : ∀ a ∈ objs, a < h.size)
    {depth : ℕ} (hnd : (objs.flatMap fun a => (surfaceIds depth h a).map Prod.snd).Nodup) (look : ℕ → Gooch) (light : Vec4) {n : ℕ} {r r' : Renderer}
    (hs : r.shaded = true) (hsh : r.shapes = objs.map (shapeOf argsort depth h look light)) (hren : Renderer.Renders n r r') :
    ∃ rays im, r.camera.generateRays = some rays ∧ r'.results = some im ∧ (im.rows : ℤ) = r.camera.vPixels ∧ im.cols = r.camera.hPixels ∧
      ∀ i < im.rows, ∀ j < im.cols, ∃ ray, rays[i * im.cols + j]? = some ray ∧
        ((renderHit r.shapes ray = (⊤, -1) ∧ im.px i j = 0) ∨
          ∃ (d : EReal) (a x : ℕ) (p : Prim), renderHit r.shapes ray = (d, ((h.obj x).oid : ℤ)) ∧ d ≠ ⊤ ∧ a ∈ objs ∧ x ∈ (surfaceIds depth h a).map Prod.snd ∧
            (h.obj x).kind = .prim p ∧ d ∈ (leafIntersect (h.obj x).objT (h.obj x).oid p ray).1 ∧
            im.px i j = (look x).shade (ray.at d.toReal) (surfaceNormal h x (ray.at d.toReal)) light ∧
            ((look x).base 3 = 1 → (look x).warm 3 = 1 → (look x).cool 3 = 1 → im.px i j 3 = 1)) := by
  have hv := ((C71_render r).1.1 ⟨n, r', hren⟩).1
  obtain ⟨-, rays, im, hray, e, h1, -⟩ := renders_eq hren
  have hl := generateRays_length hray
  have him := h1 hs
  subst e
  subst him
  refine ⟨rays, _, hray, rfl, Int.toNat_of_nonneg hv, rfl, ?_⟩
  intro i hi j hj
  have hk : i * r.camera.hPixels + j < rays.length := by rw [hl]; exact pixel_lt hi hj
  have hget : rays[i * r.camera.hPixels + j]? = some (rays.getD (i * r.camera.hPixels + j) ⟨0, 0⟩) := by
    rw [List.getD_eq_getElem _ _ hk, List.getElem?_eq_getElem hk]
  refine ⟨_, hget, ?_⟩
  set ray := rays.getD (i * r.camera.hPixels + j) ⟨0, 0⟩ with hrdef
  have epx : (shadedImage r.camera r.shapes rays (rays.map (renderHit r.shapes))).px i j =
      shadePass (r.shapes.flatMap (·.surfaces)) ray (renderHit r.shapes ray) := by
    simp only [shadedImage]
    rw [hits_getD hk]
  rw [epx]
  have hlut : r.shapes.flatMap (·.surfaces) = objs.flatMap fun a => (surfaceIds depth h a).map fun e => ((e.1 : ℤ), shadeSurface h e.2 (look e.2) light) := by
    rw [hsh, List.flatMap_map]
    rfl
  have hkeys : ((r.shapes.flatMap (·.surfaces)).map Prod.fst).Nodup := by
    have ok := scene_ok argsort ha (s := ⟨h, fun _ => .absorber⟩) hr hlt hnd (sources := []) (n := 0) (limit := 0) (fun f hf => by cases hf)
    have := ok.nodup
    rw [ok.lut] at this
    have e : ((Tracer.new [] (objs.map (Scene.component argsort depth ⟨h, fun _ => .absorber⟩)) 0 0).components.flatMap Component.surfaces).map Prod.fst =
        (r.shapes.flatMap (·.surfaces)).map Prod.fst := by
      rw [hlut]
      show ((objs.map (Scene.component argsort depth ⟨h, fun _ => .absorber⟩)).flatMap Component.surfaces).map Prod.fst = _
      rw [List.flatMap_map, List.map_flatMap, List.map_flatMap]
      congr 1
      funext a
      simp only [Scene.component, List.map_map]
      rfl
    rwa [e] at this
  rcases renderHit_from (cs := r.shapes) (ray := ray) (by
      intro c hc
      rw [hsh] at hc
      obtain ⟨a, -, rfl⟩ := List.mem_map.1 hc
      exact (intersectObj_shape argsort ha h ray depth a).2.2) with h0 | ⟨hne, c, hc, k, hk1, hk2⟩
  · left
    refine ⟨h0, shadePass_none fun e he => ?_⟩
    rw [hlut] at he
    obtain ⟨a, -, he⟩ := List.mem_flatMap.1 he
    obtain ⟨e', -, rfl⟩ := List.mem_map.1 he
    rw [h0]
    show (-1 : ℤ) ≠ (e'.1 : ℤ)
    omega
  · right
    rw [hsh] at hc
    obtain ⟨a, haobj, rfl⟩ := List.mem_map.1 hc
    obtain ⟨x, p, -, hm, hkind, hid, hleaf⟩ := intersectObj_label argsort ha h ray depth a k _ _ hk1 hne hk2
    have hmem : ((renderHit r.shapes ray).2, shadeSurface h x (look x) light) ∈ r.shapes.flatMap (·.surfaces) := by
      rw [hlut, hid]
      exact List.mem_flatMap.2 ⟨a, haobj, List.mem_map.2 ⟨_, hm, rfl⟩⟩
    have hpx := shadePass_some hkeys (ray := ray) hmem
    refine ⟨(renderHit r.shapes ray).1, a, x, p, Prod.ext rfl hid, hne, haobj, List.mem_map.2 ⟨_, hm, rfl⟩, hkind, hleaf, hpx, fun hb hw hc => ?_⟩
    rw [hpx]
    simp only [shadeSurface, Gooch.shade, Gooch.mix, Gooch.warmShade, Gooch.coolShade, hb, hw, hc]
    ring

/-- non-vacuity of C68: a unit sphere seen by a camera with two columns and one row -/
example (ha : IsArgsort argsort) (look : ℕ → Gooch) (light : Vec4) : ∃ r' im, Renderer.Renders 4
    ⟨true, ⟨2, 1, 0.5, 1⟩, [0].map (shapeOf argsort 1 (newPrim Heap.empty (.sphere 1)) look light), .idle, false, none, [], []⟩ r' ∧
    r'.results = some im ∧ im.rows = 1 ∧ im.cols = 2 := by
  set r : Renderer := ⟨true, ⟨2, 1, 0.5, 1⟩, [0].map (shapeOf argsort 1 (newPrim Heap.empty (.sphere 1)) look light), .idle, false, none, [], []⟩ with hrd
  have hv : r.camera.vPixels = 1 := by
    simp only [hrd, Camera.vPixels, truncInt]
    norm_num
  obtain ⟨h1, h2⟩ := C71_render r
  obtain ⟨n, r', h⟩ := h1.2 ⟨by rw [hv]; norm_num, fun hs => by cases hs⟩
  obtain ⟨rfl, -⟩ := h2 n r' h
  obtain ⟨rays, im, -, e, e1, e2, -⟩ := C68_shaded argsort ha (ball_reaches argsort .absorber 1) (objs := [0]) (depth := 1)
    (by intro a ha'; simp only [List.mem_singleton] at ha'; subst ha'; rw [(ball_obj .absorber).2.2.2.2]; norm_num)
    (by simp [surfaceIds, (ball_obj .absorber).1]) look light rfl rfl h
  exact ⟨r', im, h, e, by rw [hv] at e1; exact_mod_cast e1, e2⟩

end PyRayT
