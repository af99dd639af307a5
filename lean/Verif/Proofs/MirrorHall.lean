import Verif.Props.Bench

/-! A cubical hall with mirrors for walls, for the examples of C102. -/

namespace PyRayT

open Classical Matrix Spec

variable (argsort : List EReal → List ℕ)

/-- a mirror cube with its corners at plus and minus 1 -/
noncomputable def hall : Scene := ⟨newPrim Heap.empty (.cube ![-1, -1, -1] ![1, 1, 1]), fun _ => .mirror⟩

theorem hall_obj : (hall.heap.obj 0).kind = .prim (.cube ![-1, -1, -1] ![1, 1, 1]) ∧ (hall.heap.obj 0).objT = 1 ∧
    (hall.heap.obj 0).oid = 0 ∧ (hall.heap.obj 0).nscale = 1 ∧ hall.heap.size = 1 ∧ (hall.heap.obj 0).world = 1 := by
  simp [hall, newPrim, Heap.alloc, Heap.empty]

theorem hall_surfaces : surfaceIds 1 hall.heap 0 = [(0, 0)] := by
  simp only [surfaceIds, hall_obj.1, hall_obj.2.2.1]

/-- the sizes of the components of the direction: 2/7, 3/7 and 6/7 -/
noncomputable def hallA : Fin 3 → ℝ := ![2 / 7, 3 / 7, 6 / 7]

theorem hallA_pos (i : Fin 3) : 0.1 < hallA i := by
  fin_cases i <;> simp [hallA] <;> norm_num

noncomputable def hallRay (o σ : Fin 3 → ℝ) : Ray :=
  ⟨point (o 0) (o 1) (o 2), vector (σ 0 * hallA 0) (σ 1 * hallA 1) (σ 2 * hallA 2)⟩

noncomputable def hallCol (o σ : Fin 3 → ℝ) (g : ℕ) : Col :=
  { ray := hallRay o σ, generation := g, intensity := 100, wavelength := 0.633, index := 1, id := 0 }

theorem slab_sign {o σ a : ℝ} (hσ : σ = 1 ∨ σ = -1) (ha : 1e-8 < a) :
    slab (((-1 : ℝ) : EReal), ((1 : ℝ) : EReal)) o (σ * a) = ((((-1 - σ * o) / a : ℝ) : EReal), (((1 - σ * o) / a : ℝ) : EReal)) := by
  have ha0 : 0 < a := by linarith [show (0 : ℝ) < 1e-8 by norm_num]
  have hp : ¬ isclose0 (σ * a) := by
    unfold isclose0
    have : |σ * a| = a := by rcases hσ with rfl | rfl <;> simp [abs_of_pos ha0]
    rw [this]
    exact not_le.2 ha
  have h1 : (-1 - σ * o) / a ≤ (1 - σ * o) / a := div_le_div_of_nonneg_right (by linarith) ha0.le
  have h' : (((-1 - σ * o) / a : ℝ) : EReal) ≤ (((1 - σ * o) / a : ℝ) : EReal) := EReal.coe_le_coe_iff.2 h1
  unfold slab
  simp only [hp, not_false_eq_true, if_true, addMask_False]
  rw [← EReal.coe_sub, ← EReal.coe_mul, ← EReal.coe_sub, ← EReal.coe_mul]
  rcases hσ with rfl | rfl
  · rw [show (-1 - o) * (1 * a)⁻¹ = (-1 - 1 * o) / a by field_simp, show (1 - o) * (1 * a)⁻¹ = (1 - 1 * o) / a by field_simp]
    simp only [sort2, min_eq_left h', max_eq_right h']
  · rw [show (-1 - o) * (-1 * a)⁻¹ = (1 - -1 * o) / a by field_simp; ring, show (1 - o) * (-1 * a)⁻¹ = (-1 - -1 * o) / a by field_simp; ring]
    simp only [sort2, min_eq_right h', max_eq_left h']

theorem hall_hits {o σ : Fin 3 → ℝ} (hσ : ∀ i, σ i = 1 ∨ σ i = -1) (ho : ∀ i, |o i| < 1) {k : Fin 3} {t : ℝ} (ht : 0 < t)
    (hk : o k + t * (σ k * hallA k) = σ k) (hi : ∀ i, |o i + t * (σ i * hallA i)| ≤ 1) :
    ∃ h0 : ℝ, h0 < 0 ∧ (hall.component argsort 1 0).intersect (hallRay o σ) = ([(h0 : EReal), (t : EReal)], [0, 0]) := by
  have hs : ∀ i, slab (toBox (cubeSpans ![-1, -1, -1] ![1, 1, 1]) i) (o i) (σ i * hallA i) =
      ((((-1 - σ i * o i) / hallA i : ℝ) : EReal), (((1 - σ i * o i) / hallA i : ℝ) : EReal)) := by
    intro i
    rw [← slab_sign (hσ i) (by have := hallA_pos i; norm_num at this ⊢; linarith)]
    fin_cases i <;> simp [toBox, cubeSpans]
  have hlow : ∀ i, (-1 - σ i * o i) / hallA i < 0 := by
    intro i
    obtain ⟨h1, h2⟩ := abs_lt.1 (ho i)
    have hp : 0 < hallA i := by linarith [hallA_pos i]
    apply div_neg_of_neg_of_pos _ hp
    rcases hσ i with h | h <;> rw [h] <;> linarith
  have hup : ∀ i, t ≤ (1 - σ i * o i) / hallA i := by
    intro i
    obtain ⟨h1, h2⟩ := abs_le.1 (hi i)
    have hp : 0 < hallA i := by linarith [hallA_pos i]
    rw [le_div_iff₀ hp]
    rcases hσ i with h | h <;> rw [h] at h1 h2 ⊢ <;> linarith
  have hkk : (1 - σ k * o k) / hallA k = t := by
    have hp : 0 < hallA k := by linarith [hallA_pos k]
    rw [div_eq_iff hp.ne']
    rcases hσ k with h | h <;> rw [h] at hk ⊢ <;> linarith
  have hmin : min (min ((1 - σ 0 * o 0) / hallA 0) ((1 - σ 1 * o 1) / hallA 1)) ((1 - σ 2 * o 2) / hallA 2) = t := by
    apply le_antisymm
    · rw [← hkk]
      fin_cases k <;> simp
    · exact le_min (le_min (hup 0) (hup 1)) (hup 2)
  set h0 := max (max ((-1 - σ 0 * o 0) / hallA 0) ((-1 - σ 1 * o 1) / hallA 1)) ((-1 - σ 2 * o 2) / hallA 2) with e0
  have hneg : h0 < 0 := max_lt (max_lt (hlow 0) (hlow 1)) (hlow 2)
  refine ⟨h0, hneg, ?_⟩
  show intersectObj argsort 1 hall.heap 0 _ = _
  have hmap : (hallRay o σ).map 1 = hallRay o σ := by simp [Ray.map]
  have hlt : (h0 : EReal) < (t : EReal) := EReal.coe_lt_coe_iff.2 (by linarith)
  have hb : Prim.intersect (.cube ![-1, -1, -1] ![1, 1, 1]) (hallRay o σ) = ((h0 : EReal), (t : EReal)) := by
    have a0 : (hallRay o σ).o 0 = o 0 := rfl
    have a1 : (hallRay o σ).o 1 = o 1 := rfl
    have a2 : (hallRay o σ).o 2 = o 2 := rfl
    have d0 : (hallRay o σ).d 0 = σ 0 * hallA 0 := rfl
    have d1 : (hallRay o σ).d 1 = σ 1 * hallA 1 := rfl
    have d2 : (hallRay o σ).d 2 = σ 2 * hallA 2 := rfl
    simp only [Prim.intersect, boxIntersect, a0, a1, a2, d0, d1, d2, hs]
    rw [← EReal.coe_strictMono.monotone.map_max, ← EReal.coe_strictMono.monotone.map_max, ← EReal.coe_strictMono.monotone.map_min,
      ← EReal.coe_strictMono.monotone.map_min, hmin, ← e0, if_pos hlt]
  simp only [intersectObj, hall_obj.1, leafIntersect, hall_obj.2.1, hall_obj.2.2.1, hmap, hb]
  simp [sort2, min_eq_left hlt.le, max_eq_right hlt.le]

theorem hall_nearest {o σ : Fin 3 → ℝ} (hσ : ∀ i, σ i = 1 ∨ σ i = -1) (ho : ∀ i, |o i| < 1) {k : Fin 3} {t : ℝ} (ht : 0 < t)
    (hk : o k + t * (σ k * hallA k) = σ k) (hi : ∀ i, |o i + t * (σ i * hallA i)| ≤ 1) :
    Nearest ([0].map (hall.component argsort 1)) (hallRay o σ) t 0 := by
  obtain ⟨h0, hneg, hh⟩ := hall_hits argsort hσ ho ht hk hi
  refine ⟨ht, ?_, 0, _, 1, rfl, fun j hj => by omega, ?_, ?_, ?_⟩
  · intro c hc h hm hp
    simp only [List.map_cons, List.map_nil, List.mem_singleton] at hc
    subst hc
    rw [hh] at hm
    simp only [List.mem_cons, List.not_mem_nil, or_false] at hm
    rcases hm with rfl | rfl
    · have : (0 : ℝ) < h0 := by exact_mod_cast hp
      linarith
    · exact le_rfl
  · rw [hh]; rfl
  · intro j hj
    obtain rfl : j = 0 := by omega
    rw [hh]
    simp only [List.getElem?_cons_zero, ne_eq, Option.some.injEq, EReal.coe_eq_coe_iff]
    linarith
  · rw [hh]; rfl

/-- a point on a wall, away from the edges -/
theorem hall_face {p : Vec4} {k : Fin 3} {b : Bool} (hk : p k.castSucc = if b then 1 else -1) (hi : ∀ i, i ≠ k → |p i.castSucc| < 0.99) :
    OnFace ![-1, -1, -1] ![1, 1, 1] k b p := by
  have e1 : ∀ i : Fin 3, (![-1, -1, -1] : Fin 3 → ℝ) i = -1 := by intro i; fin_cases i <;> rfl
  have e2 : ∀ i : Fin 3, (![1, 1, 1] : Fin 3 → ℝ) i = 1 := by intro i; fin_cases i <;> rfl
  refine ⟨?_, ?_, fun i h => ?_⟩
  · rw [hk, e1, e2]; cases b <;> simp
  · rw [e1, e2]; simp [isclose]; norm_num
  · obtain ⟨h1, h2⟩ := abs_lt.1 (hi i h)
    rw [e1, e2]
    constructor
    · simp [isclose]; rw [abs_of_pos (by linarith)]; norm_num at h1 ⊢; linarith
    · simp [isclose]; rw [abs_of_neg (by linarith)]; norm_num at h1 h2 ⊢; linarith

theorem hall_normal {p : Vec4} {k : Fin 3} {b : Bool} (h : OnFace ![-1, -1, -1] ![1, 1, 1] k b p) :
    surfaceNormal hall.heap 0 p = fun j => if j = k.castSucc then (if b then 1 else -1) else 0 := by
  have e : surfaceNormal hall.heap 0 p = worldNormal (hall.heap.obj 0) (.cube ![-1, -1, -1] ![1, 1, 1]) p := by
    simp only [surfaceNormal, hall_obj.1]
  rw [e, worldNormal, hall_obj.2.2.2.1, hall_obj.2.1, one_smul, transpose_one, one_mulVec, one_mulVec, cube_face_normal h]
  funext j
  fin_cases k <;> fin_cases j <;> cases b <;> simp [normalize, zeroW, norm4]

noncomputable def hallTracer : Tracer :=
  Tracer.new [fun _ => [hallCol ![1 / 5, 0, 0] ![1, 1, 1] 0]] ([0].map (hall.component argsort 1)) 1 4

/-- one reflection at a wall -/
theorem hall_step {c0 : Col} {o σ o' σ' : Fin 3 → ℝ} {g : ℕ} (hj : Journey (hallTracer argsort) c0 g (hallCol o σ g))
    (hσ : ∀ i, σ i = 1 ∨ σ i = -1) (ho : ∀ i, |o i| < 1) {k : Fin 3} {t : ℝ} (ht : 0 < t)
    (hk : o k + t * (σ k * hallA k) = σ k) (hi : ∀ i, i ≠ k → |o i + t * (σ i * hallA i)| < 0.99)
    (hσ' : ∀ i, σ' i = if i = k then -σ i else σ i) (ho' : ∀ i, o' i = o i + t * (σ i * hallA i) + 1e-6 * (σ' i * hallA i)) :
    Nearest ([0].map (hall.component argsort 1)) (hallRay o σ) t 0 ∧ ¬ Extinct (hallCol o σ g) ∧
    Journey (hallTracer argsort) c0 (g + 1) (hallCol o' σ' (g + 1)) := by
  have hi' : ∀ i, |o i + t * (σ i * hallA i)| ≤ 1 := by
    intro i
    by_cases h : i = k
    · subst h; rw [hk]; rcases hσ i with h | h <;> rw [h] <;> simp
    · have := hi i h; norm_num at this ⊢; linarith
  have hn := hall_nearest argsort hσ ho ht hk hi'
  have hsq : ∀ i, σ i ^ 2 = 1 := fun i => by rcases hσ i with h | h <;> rw [h] <;> norm_num
  have hx : ¬ Extinct (hallCol o σ g) := by
    apply not_extinct_of_unit
    simp only [hallCol, hallRay, norm4, vector]
    simp only [cons_val]
    rw [Real.sqrt_eq_one]
    simp only [mul_pow, hsq, hallA, cons_val]
    norm_num
  refine ⟨hn, hx, ?_⟩
  have hj' := Journey.next hj hx hn (f := fun c => (hall.material 0).trace (surfaceNormal hall.heap 0) c)
    (by simp [hallTracer, Tracer.new, Scene.component, hall_surfaces])
  have hm : hall.material 0 = .mirror := rfl
  have hp : (moved (hallCol o σ g) t).ray.o = point (o 0 + t * (σ 0 * hallA 0)) (o 1 + t * (σ 1 * hallA 1)) (o 2 + t * (σ 2 * hallA 2)) := by
    funext i; fin_cases i <;> simp [moved, hallCol, hallRay, point, vector]
  have hpi : ∀ i : Fin 3, (moved (hallCol o σ g) t).ray.o i.castSucc = o i + t * (σ i * hallA i) := by
    intro i; rw [hp]; fin_cases i <;> rfl
  have hface : OnFace ![-1, -1, -1] ![1, 1, 1] k (decide (σ k = 1)) (moved (hallCol o σ g) t).ray.o := by
    refine hall_face ?_ fun i h => by rw [hpi]; exact hi i h
    rw [hpi, hk]
    rcases hσ k with h | h <;> rw [h] <;> norm_num
  have hnorm : surfaceNormal hall.heap 0 (moved (hallCol o σ g) t).ray.o = fun j => if j = k.castSucc then σ k else 0 := by
    rw [hall_normal hface]
    funext j
    rcases hσ k with h | h <;> rw [h] <;> norm_num
  simp only [hm, Material.trace, hnorm] at hj'
  have hd : (fun i => (moved (hallCol o σ g) t).ray.d i - 2 * (if i = k.castSucc then σ k else 0) *
      dot4 (moved (hallCol o σ g) t).ray.d fun j => if j = k.castSucc then σ k else 0) =
      vector (σ' 0 * hallA 0) (σ' 1 * hallA 1) (σ' 2 * hallA 2) := by
    have hv : (moved (hallCol o σ g) t).ray.d = vector (σ 0 * hallA 0) (σ 1 * hallA 1) (σ 2 * hallA 2) := rfl
    rw [hv]
    funext i
    simp only [hσ']
    fin_cases k <;> fin_cases i <;> simp [vector, dot4]
    · linear_combination (-2 * σ 0 * hallA 0) * hsq 0
    · linear_combination (-2 * σ 1 * hallA 1) * hsq 1
    · linear_combination (-2 * σ 2 * hallA 2) * hsq 2
  rw [hd, hp] at hj'
  have hoff : (hallTracer argsort).offset = 1e-6 := rfl
  rw [hoff] at hj'
  convert hj' using 1
  simp only [moved, hallCol, hallRay, ho', Nat.cast_add, Nat.cast_one]
  congr 2
  funext i
  fin_cases i <;> simp [point, vector]

theorem hall_bench : Bench argsort 1 hall [0] 1 [fun _ => [hallCol ![1 / 5, 0, 0] ![1, 1, 1] 0]] 1 where
  history := ReachesBy.placed argsort (.step (.newPrim _) (.refl _) trivial (fun _ _ h => by cases h) rfl)
  exist a h := by
    rw [hall_obj.2.2.2.2.1]
    simp at h; omega
  distinct := by simp [hall_surfaces]
  sized a h x id p hx hk := by
    simp only [List.mem_singleton] at h
    subst h
    rw [hall_surfaces] at hx
    simp only [List.mem_singleton, Prod.mk.injEq] at hx
    obtain ⟨-, rfl⟩ := hx
    rw [hall_obj.1] at hk
    cases hk; trivial
  emits f hf c hc := by
    simp only [List.mem_singleton] at hf
    subst hf
    simp only [List.mem_singleton] at hc
    subst hc
    refine ⟨by simp [hallCol], rfl, rfl, ?_⟩
    simp [hallCol, hallRay, norm4, vector, hallA]; norm_num
  positive f hf c hc := by
    simp only [List.mem_singleton] at hf
    subst hf
    simp only [List.mem_singleton] at hc
    subst hc
    exact ⟨by simp [hallCol], fun a _ x id g _ hg => by cases hg⟩

/-- the four rows of the ray: it is reflected by the wall across z, then across y, then across x -/
theorem hall_rows (ha : IsArgsort argsort) : ∃ (k : ℕ) (t' : Tracer) (rows : ℕ → Row), Tracer.Traces k (hallTracer argsort) t' ∧
    (∀ g ≤ 3, rows g ∈ t'.frame) ∧ (∀ g < 3, Follows (rows g) (rows (g + 1))) ∧ (∀ g ≤ 3, (rows g).surface = 0) ∧
    (rows 0).finish = point (8 / 15) (1 / 2) 1 ∧ (rows 1).finish = point (13 / 15) 1 0 ∧ (rows 2).finish = point 1 (4 / 5) (-2 / 5) := by
  have ok : TracerOk (hallTracer argsort) := (hall_bench argsort).ok ha 4
  obtain ⟨k, t', h, -⟩ := C26_terminates (hallTracer argsort) (by simp [hallTracer, Tracer.new]) (by simp [hallTracer, Tracer.new])
    (fun s hs c hc => (ok.emits s hs c hc).1)
  have he : Emitted (hallTracer argsort) 0 (hallCol ![1 / 5, 0, 0] ![1, 1, 1] 0) := ⟨_, rfl, by simp [hallCol]⟩
  let o1 : Fin 3 → ℝ := ![8 / 15 + 1e-6 * (2 / 7), 1 / 2 + 1e-6 * (3 / 7), 1 - 1e-6 * (6 / 7)]
  let o2 : Fin 3 → ℝ := ![13 / 15 + 1e-6 * (2 / 7), 1 - 1e-6 * (3 / 7), 0 - 1e-6 * (6 / 7)]
  let o3 : Fin 3 → ℝ := ![1 - 1e-6 * (2 / 7), 4 / 5 - 1e-6 * (3 / 7), -2 / 5 - 1e-6 * (6 / 7)]
  obtain ⟨n0, x0, j1⟩ := hall_step argsort (g := 0) (o := ![1 / 5, 0, 0]) (σ := ![1, 1, 1]) (o' := o1) (σ' := ![1, 1, -1]) Journey.start
    (k := 2) (t := 7 / 6) (by intro i; fin_cases i <;> simp) (by intro i; fin_cases i <;> simp <;> norm_num [abs_lt]) (by norm_num)
    (by simp [hallA]) (by intro i hi; fin_cases i <;> simp [hallA, abs_lt] at hi ⊢ <;> norm_num)
    (by intro i; fin_cases i <;> simp) (by intro i; fin_cases i <;> simp [hallA, o1] <;> norm_num)
  obtain ⟨n1, x1, j2⟩ := hall_step argsort (g := 1) (o := o1) (σ := ![1, 1, -1]) (o' := o2) (σ' := ![1, -1, -1]) j1
    (k := 1) (t := 7 / 6 - 1e-6) (by intro i; fin_cases i <;> simp) (by intro i; fin_cases i <;> simp [o1] <;> norm_num [abs_lt]) (by norm_num)
    (by simp [hallA, o1]; norm_num) (by intro i hi; fin_cases i <;> simp [hallA, abs_lt, o1] at hi ⊢ <;> norm_num)
    (by intro i; fin_cases i <;> simp) (by intro i; fin_cases i <;> simp [hallA, o1, o2] <;> norm_num)
  obtain ⟨n2, x2, j3⟩ := hall_step argsort (g := 2) (o := o2) (σ := ![1, -1, -1]) (o' := o3) (σ' := ![-1, -1, -1]) j2
    (k := 0) (t := 7 / 15 - 1e-6) (by intro i; fin_cases i <;> simp) (by intro i; fin_cases i <;> simp [o2] <;> norm_num [abs_lt]) (by norm_num)
    (by simp [hallA, o2]; norm_num) (by intro i hi; fin_cases i <;> simp [hallA, abs_lt, o2] at hi ⊢ <;> norm_num)
    (by intro i; fin_cases i <;> simp) (by intro i; fin_cases i <;> simp [hallA, o2, o3] <;> norm_num)
  obtain ⟨n3, x3, -⟩ := hall_step argsort (g := 3) (o := o3) (σ := ![-1, -1, -1])
    (o' := fun i => o3 i + (7 / 10 - 1e-6) * ((![-1, -1, -1] : Fin 3 → ℝ) i * hallA i) + 1e-6 * ((![-1, -1, 1] : Fin 3 → ℝ) i * hallA i)) (σ' := ![-1, -1, 1]) j3
    (k := 2) (t := 7 / 10 - 1e-6) (by intro i; fin_cases i <;> simp) (by intro i; fin_cases i <;> simp [o3] <;> norm_num [abs_lt]) (by norm_num)
    (by simp [hallA, o3]; norm_num) (by intro i hi; fin_cases i <;> simp [hallA, abs_lt, o3] at hi ⊢ <;> norm_num)
    (by intro i; fin_cases i <;> simp) (fun _ => rfl)
  obtain ⟨r0, h0⟩ := segment_exists (hallCol ![1 / 5, 0, 0] ![1, 1, 1] 0) (7 / 6) 0
  obtain ⟨r1, h1⟩ := segment_exists (hallCol o1 ![1, 1, -1] 1) (7 / 6 - 1e-6) 0
  obtain ⟨r2, h2⟩ := segment_exists (hallCol o2 ![1, -1, -1] 2) (7 / 15 - 1e-6) 0
  obtain ⟨r3, h3⟩ := segment_exists (hallCol o3 ![-1, -1, -1] 3) (7 / 10 - 1e-6) 0
  let rows : ℕ → Row := fun g => if g = 0 then r0 else if g = 1 then r1 else if g = 2 then r2 else r3
  refine ⟨k, t', rows, h, ?_, ?_, ?_, ?_, ?_, ?_⟩
  · intro g hg
    interval_cases g
    · exact (trace_iff ok h r0).2 ⟨0, 0, fun _ => by simp [hallTracer, Tracer.new], _, _, _, _, he, Journey.start, x0, n0, h0⟩
    · exact (trace_iff ok h r1).2 ⟨0, 1, fun _ => by simp [hallTracer, Tracer.new], _, _, _, _, he, j1, x1, n1, h1⟩
    · exact (trace_iff ok h r2).2 ⟨0, 2, fun _ => by simp [hallTracer, Tracer.new], _, _, _, _, he, j2, x2, n2, h2⟩
    · exact (trace_iff ok h r3).2 ⟨0, 3, fun _ => by simp [hallTracer, Tracer.new], _, _, _, _, he, j3, x3, n3, h3⟩
  · intro g hg
    interval_cases g
    · exact ⟨(h1.id.trans h0.id.symm), by show r1.generation = r0.generation + 1; rw [h0.generation, h1.generation]; simp [hallCol]⟩
    · exact ⟨(h2.id.trans h1.id.symm), by show r2.generation = r1.generation + 1; rw [h1.generation, h2.generation]; simp [hallCol]; norm_num⟩
    · exact ⟨(h3.id.trans h2.id.symm), by show r3.generation = r2.generation + 1; rw [h2.generation, h3.generation]; simp [hallCol]; norm_num⟩
  · intro g hg
    interval_cases g
    · exact h0.surface
    · exact h1.surface
    · exact h2.surface
    · exact h3.surface
  · show r0.finish = _
    funext i
    fin_cases i <;> simp only [Row.finish, point, h0.stop] <;> simp [hallCol, hallRay, vector, point, hallA] <;> norm_num
  · show r1.finish = _
    funext i
    fin_cases i <;> simp only [Row.finish, point, h1.stop] <;> simp [hallCol, hallRay, vector, point, hallA, o1] <;> norm_num
  · show r2.finish = _
    funext i
    fin_cases i <;> simp only [Row.finish, point, h2.stop] <;> simp [hallCol, hallRay, vector, point, hallA, o2] <;> norm_num

end PyRayT
