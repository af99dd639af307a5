import Verif.Spec.Moved
import Verif.Proofs.Scene
import Verif.Proofs.Sources
import Verif.Proofs.Tracer2
import Verif.Proofs.Normals
import Mathlib.LinearAlgebra.Matrix.ToLinearEquiv

/-! Isometries commute with everything the tracer does. -/

namespace PyRayT

open Classical Matrix Spec

/-! ### isometries -/

theorem isometry_of_rigid {m : Mat4} (hm : Rigid m) : Isometry m := ⟨hm.1, hm.2.2⟩

theorem Spec.Isometry.three {m : Mat4} (hm : Isometry m) (v : Vec4) : (m *ᵥ v) 3 = v 3 := by
  rw [mulVec4, hm.1]; simp

theorem Spec.Isometry.dot {w : Mat4} (hw : Isometry w) {u v : Vec4} (hu : u 3 = 0) (hv : v 3 = 0) :
    dot4 (w *ᵥ u) (w *ᵥ v) = dot4 u v := by
  have h : ∀ x : Vec4, x 3 = 0 → dot4 (w *ᵥ x) (w *ᵥ x) = dot4 x x := by
    intro x hx; rw [← norm4_sq, ← norm4_sq, hw.2 x hx]
  have e : ∀ x y : Vec4, dot4 (x + y) (x + y) = dot4 x x + 2 * dot4 x y + dot4 y y := by
    intro x y; simp only [dot4, Pi.add_apply]; ring
  have h2 := h (u + v) (by simp [hu, hv])
  rw [mulVec_add, e, e, h u hu, h v hv] at h2
  linarith

theorem Spec.Isometry.det {m : Mat4} (hm : Isometry m) : m.det ≠ 0 := by
  intro hd
  obtain ⟨v, hv, he⟩ := Matrix.exists_mulVec_eq_zero_iff.2 hd
  have h3 : v 3 = 0 := by rw [← hm.three v, he]; rfl
  have hn := hm.2 v h3
  rw [he] at hn
  have : 0 < norm4 v := norm4_pos hv
  rw [← hn, show norm4 0 = 0 by simp [norm4]] at this
  exact lt_irrefl _ this

theorem Spec.Isometry.affine {m : Mat4} (hm : Isometry m) : Affine m := ⟨hm.1, hm.det⟩

theorem Spec.Isometry.inv_mulVec {m : Mat4} (hm : Isometry m) (v : Vec4) : m⁻¹ *ᵥ (m *ᵥ v) = v := by
  rw [mulVec_mulVec, nonsing_inv_mul _ (isUnit_iff_ne_zero.2 hm.det), one_mulVec]

theorem Spec.Isometry.mulVec_inv {m : Mat4} (hm : Isometry m) (v : Vec4) : m *ᵥ (m⁻¹ *ᵥ v) = v := by
  rw [mulVec_mulVec, mul_nonsing_inv _ (isUnit_iff_ne_zero.2 hm.det), one_mulVec]

theorem Spec.Isometry.normalize {m : Mat4} (hm : Isometry m) {v : Vec4} (hv : v 3 = 0) :
    normalize (m *ᵥ v) = m *ᵥ PyRayT.normalize v := by
  have e : PyRayT.normalize v = (norm4 v)⁻¹ • v := by funext i; simp [PyRayT.normalize]; ring
  rw [e, mulVec_smul]
  funext i
  simp only [PyRayT.normalize, hm.2 v hv, Pi.smul_apply, smul_eq_mul]
  ring

/-- vectors with w = 0 are determined by their products with vectors with w = 0 -/
theorem eq_of_dots {u v : Vec4} (hu : u 3 = 0) (hv : v 3 = 0) (h : ∀ x : Vec4, x 3 = 0 → dot4 u x = dot4 v x) : u = v := by
  have h0 := h ![1, 0, 0, 0] rfl
  have h1 := h ![0, 1, 0, 0] rfl
  have h2 := h ![0, 0, 1, 0] rfl
  simp [dot4] at h0 h1 h2
  funext i
  fin_cases i
  · exact h0
  · exact h1
  · exact h2
  · exact hu.trans hv.symm

/-- normals transform with the inverse transpose; for an isometry this is the isometry itself -/
theorem Spec.Isometry.zeroW {m : Mat4} (hm : Isometry m) (u : Vec4) : zeroW ((m⁻¹)ᵀ *ᵥ u) = m *ᵥ zeroW u := by
  refine eq_of_dots rfl (by rw [hm.three]; rfl) fun x hx => ?_
  have hx' : (m⁻¹ *ᵥ x) 3 = 0 := by rw [← hm.three (m⁻¹ *ᵥ x), hm.mulVec_inv, hx]
  rw [dot_zeroW_transpose _ _ _ hx]
  conv_rhs => rw [← hm.mulVec_inv x]
  rw [hm.dot rfl hx']
  simp [dot4, PyRayT.zeroW, hx']

theorem surfaceNormal_moved {h h' : Heap} {x : ℕ} {m : Mat4} (hm : Isometry m) (hk : (h'.obj x).kind = (h.obj x).kind)
    (hn : (h'.obj x).nscale = (h.obj x).nscale) (ho : (h'.obj x).objT = (h.obj x).objT * m⁻¹) (pos : Vec4) :
    surfaceNormal h' x (m *ᵥ pos) = m *ᵥ surfaceNormal h x pos := by
  unfold surfaceNormal
  rw [hk]
  split
  · unfold worldNormal
    rw [hn, ho, ← mulVec_mulVec, hm.inv_mulVec, transpose_mul, ← mulVec_mulVec, hm.zeroW, hm.normalize rfl, mulVec_smul]
  · simp

theorem surfaceNormal_three (h : Heap) (x : ℕ) (pos : Vec4) : surfaceNormal h x pos 3 = 0 := by
  unfold surfaceNormal
  cases (h.obj x).kind with
  | prim p =>
    simp only [worldNormal, Pi.smul_apply, smul_eq_mul]
    simp [normalize, PyRayT.zeroW]
  | _ => rfl

/-! ### materials -/

theorem refract_moved {m : Mat4} (hm : Isometry m) {v n : Vec4} (hv : v 3 = 0) (hn : n 3 = 0) (n1 n2 ng : ℝ) :
    (refract (m *ᵥ v) (m *ᵥ n) n1 n2 ng).2.1 = m *ᵥ (refract v n n1 n2 ng).2.1 ∧
    (refract (m *ᵥ v) (m *ᵥ n) n1 n2 ng).2.2 = (refract v n n1 n2 ng).2.2 := by
  have hu : normalize v 3 = 0 := normalize_three hv
  have hnn : (-n) 3 = 0 := by simp [hn]
  have d1 : dot4 (m *ᵥ normalize v) (m *ᵥ n) = dot4 (normalize v) n := hm.dot hu hn
  have d2 : dot4 (m *ᵥ normalize v) (-(m *ᵥ n)) = dot4 (normalize v) (-n) := by rw [← mulVec_neg]; exact hm.dot hu hnn
  have lin : ∀ (a b : ℝ) (p q : Vec4), (fun i => a * (m *ᵥ p) i + b * (m *ᵥ q) i) = m *ᵥ fun i => a * p i + b * q i := by
    intro a b p q
    have : (fun i => a * p i + b * q i) = a • p + b • q := rfl
    rw [this, mulVec_add, mulVec_smul, mulVec_smul]
    rfl
  have lin1 : ∀ (b : ℝ) (p q : Vec4), (fun i => (m *ᵥ p) i + b * (m *ᵥ q) i) = m *ᵥ fun i => p i + b * q i := by
    intro b p q
    have := lin 1 b p q
    simpa using this
  have out : ∀ w : Vec4, w 3 = 0 → normalize (m *ᵥ w) = m *ᵥ normalize w := fun w hw => hm.normalize hw
  unfold refract refractIndex
  simp only [hm.normalize hv, d1, d2]
  constructor
  · rw [← mulVec_neg]
    split <;> split
    · rw [lin, out _ (by simp [hu, hn])]
    · rw [lin1, out _ (by simp [hu, hn])]
    · rw [lin, out _ (by simp [hu, hn])]
    · rw [lin1, out _ (by simp [hu, hn])]
  · trivial

theorem material_moved {m : Mat4} (hm : Isometry m) {N N' : Vec4 → Vec4} (hN : ∀ p, N' (m *ᵥ p) = m *ᵥ N p) (h3 : ∀ p, N p 3 = 0)
    (mat : Material) {c : Col} (hc : c.ray.d 3 = 0) : mat.trace N' (carried m c) = carried m (mat.trace N c) := by
  cases mat with
  | absorber => simp [Material.trace, carried]
  | mirror =>
    have e : (fun i => c.ray.d i - 2 * N c.ray.o i * dot4 c.ray.d (N c.ray.o)) =
        c.ray.d - (2 * dot4 c.ray.d (N c.ray.o)) • N c.ray.o := by
      funext i; simp only [Pi.sub_apply, Pi.smul_apply, smul_eq_mul]; ring
    simp only [Material.trace, carried, hN, e, mulVec_sub, mulVec_smul]
    congr 2
    funext i
    rw [hm.dot hc (h3 _)]
    simp only [Pi.sub_apply, Pi.smul_apply, smul_eq_mul]
    ring
  | glass g =>
    obtain ⟨h1, h2⟩ := refract_moved hm hc (h3 c.ray.o) c.index (g.indexAt c.wavelength) 1
    simp only [Material.trace, carried, hN, h1, h2]

/-! ### the tracer -/

theorem moved_carried (m : Mat4) (c : Col) (d : ℝ) : moved (carried m c) d = carried m (moved c d) := by
  have e : (fun i => c.ray.o i + d * c.ray.d i) = c.ray.o + d • c.ray.d := rfl
  simp only [moved, carried, e, mulVec_add, mulVec_smul]
  rfl

theorem extinct_carried {m : Mat4} (hm : Isometry m) {c : Col} (hc : c.ray.d 3 = 0) : Extinct (carried m c) ↔ Extinct c := by
  unfold Extinct carried
  rw [hm.2 _ hc]

theorem point_of {v : Vec4} (h : v 3 = 1) : point (v 0) (v 1) (v 2) = v := by
  funext i; fin_cases i <;> simp [point, h]

theorem vector_of {v : Vec4} (h : v 3 = 0) : vector (v 0) (v 1) (v 2) = v := by
  funext i; fin_cases i <;> simp [vector, h]

theorem segment_carried {m : Mat4} (hm : Isometry m) {c : Col} (ho : c.ray.o 3 = 1) (hd : c.ray.d 3 = 0) {d : ℝ} {s : ℤ} {r : Row}
    (h : Segment c d s r) : Segment (carried m c) d s (carriedRow m r) := by
  obtain ⟨a1, a2, a3, a4, a5, a6, a7, a8, a9⟩ := h
  have e1 : point (r.start 0) (r.start 1) (r.start 2) = c.ray.o := by
    rw [a7, a7, a7]; exact point_of ho
  have e2 : point (r.stop 0) (r.stop 1) (r.stop 2) = c.ray.o + d • c.ray.d := by
    rw [a8, a8, a8]
    exact point_of (v := c.ray.o + d • c.ray.d) (by simp [ho, hd])
  have hs : √(c.ray.d 0 ^ 2 + c.ray.d 1 ^ 2 + c.ray.d 2 ^ 2) = norm4 c.ray.d := by simp [norm4, hd]
  have hs' : √((m *ᵥ c.ray.d) 0 ^ 2 + (m *ᵥ c.ray.d) 1 ^ 2 + (m *ᵥ c.ray.d) 2 ^ 2) = norm4 (m *ᵥ c.ray.d) := by
    have : (m *ᵥ c.ray.d) 3 = 0 := by rw [hm.three, hd]
    simp [norm4, this]
  have e3 : vector (r.tilt 0) (r.tilt 1) (r.tilt 2) = (norm4 c.ray.d)⁻¹ • c.ray.d := by
    rw [a9, a9, a9, hs]
    have := vector_of (v := (norm4 c.ray.d)⁻¹ • c.ray.d) (by simp [hd])
    rw [← this]
    congr 1 <;> simp [div_eq_inv_mul]
  refine ⟨a1, a2, a3, a4, a5, a6, fun i => ?_, fun i => ?_, fun i => ?_⟩
  · simp only [carriedRow, carried]; rw [e1]
  · simp only [carriedRow, carried]; rw [e2, mulVec_add, mulVec_smul]; rfl
  · simp only [carriedRow, carried]
    rw [e3, mulVec_smul, hs', hm.2 _ hd]
    simp [div_eq_inv_mul]

/-- Two tracers, the second of which sees the carried rays as the first sees the rays; `P g` holds for the rays of the first
at the start of round `g`. -/
structure Carries (m : Mat4) (P : ℕ → Col → Prop) (t t' : Tracer) : Prop where
  iso : Isometry m
  ok : TracerOk t
  ok' : TracerOk t'
  coords : ∀ g c, P g c → c.ray.o 3 = 1 ∧ c.ray.d 3 = 0
  hits : ∀ g c, P g c → ¬ Extinct c → hitOf t'.components ((c.ray).map m) = hitOf t.components c.ray
  lut : ∀ s f, (s, f) ∈ t.lut → ∃ f', (s, f') ∈ t'.lut ∧ ∀ c, c.ray.d 3 = 0 → f' (carried m c) = carried m (f c)
  offset : t'.offset = t.offset
  limit : t'.limit = t.limit
  n : t'.raysPerSource = t.raysPerSource
  sources : List.Forall₂ (fun f f' => f' t.raysPerSource = (f t.raysPerSource).map (carried m)) t.sources t'.sources
  emits : ∀ c ∈ sourceRays t.sources t.raysPerSource, P 0 c
  step : ∀ g c r c', P g c → t.colStep g c = some (r, c') → P (g + 1) c'

theorem nearest_unique_of_hitOf {t : Tracer} (ok : TracerOk t) {ray : Ray} {d : ℝ} {s : ℤ} (h : Nearest t.components ray d s) :
    hitOf t.components ray = ((d : EReal), s) := by
  rcases hitOf_spec (fun c hc => (ok.comps c hc).len) ray with ⟨hm, -⟩ | ⟨d', s', hn, he⟩
  · exact absurd hm h.not_miss
  · obtain ⟨rfl, rfl⟩ := h.unique hn
    exact he

theorem miss_of_hitOf {t : Tracer} (ok : TracerOk t) {ray : Ray} (h : hitOf t.components ray = (⊤, -1)) : Miss t.components ray := by
  rcases hitOf_spec (fun c hc => (ok.comps c hc).len) ray with ⟨hm, -⟩ | ⟨d', s', hn, he⟩
  · exact hm
  · rw [he] at h; simp at h

theorem Carries.colStep {m : Mat4} {P : ℕ → Col → Prop} {t t' : Tracer} (h : Carries m P t t') (g : ℕ) {c : Col} (hc : P g c) :
    t'.colStep g (carried m c) = (t.colStep g c).map fun p => (carriedRow m p.1, carried m p.2) := by
  obtain ⟨ho, hd⟩ := h.coords g c hc
  have hx := extinct_carried h.iso hd
  rcases colStep_iff h.ok g c with ⟨h1, h2⟩ | ⟨d, s, f, r, h1, h2, h3, h4, h5⟩
  · rw [h2]
    rcases colStep_iff h.ok' g (carried m c) with ⟨-, k2⟩ | ⟨d', s', f', r', k1, k2, k3, k4, k5⟩
    · rw [k2]; rfl
    · exfalso
      have hne : ¬ Extinct c := fun hh => k1 (hx.2 hh)
      have hh := h.hits g c hc hne
      have e2 := nearest_unique_of_hitOf h.ok' k2
      rw [show (carried m c).ray = c.ray.map m from rfl, hh] at e2
      rcases h1 with h1 | h1
      · exact hne h1
      · rcases hitOf_spec (fun c hc => (h.ok.comps c hc).len) c.ray with ⟨-, he⟩ | ⟨d1, s1, hn, -⟩
        · rw [he] at e2; simp at e2
        · exact hn.not_miss h1
  · rw [h5]
    have hh := h.hits g c hc h1
    have e1 := nearest_unique_of_hitOf h.ok h2
    rcases colStep_iff h.ok' g (carried m c) with ⟨k1, k2⟩ | ⟨d', s', f', r', k1, k2, k3, k4, k5⟩
    · exfalso
      rcases k1 with k1 | k1
      · exact h1 (hx.1 k1)
      · rw [e1] at hh
        rcases hitOf_spec (fun c hc => (h.ok'.comps c hc).len) (c.ray.map m) with ⟨-, he⟩ | ⟨d1, s1, hn, -⟩
        · rw [he] at hh; simp at hh
        · exact hn.not_miss k1
    · have e2 := nearest_unique_of_hitOf h.ok' k2
      rw [show (carried m c).ray = c.ray.map m from rfl, hh, e1] at e2
      simp only [Prod.mk.injEq, EReal.coe_eq_coe_iff] at e2
      obtain ⟨rfl, rfl⟩ := e2
      obtain ⟨f2, hf2, hcar⟩ := h.lut s f h3
      have ef : f' = f2 := lut_unique h.ok'.nodup k3 hf2
      have er : r' = carriedRow m r := k4.unique (segment_carried h.iso ho hd h4)
      have e3 : f' (moved (carried m c) d) = carried m (f (moved c d)) := by
        rw [ef, moved_carried, hcar]
        exact hd
      rw [k5, er, e3, h.offset]
      have e4 : ({ carried m (f (moved c d)) with generation := (g : ℝ) + 1 } : Col) =
          carried m { f (moved c d) with generation := (g : ℝ) + 1 } := rfl
      rw [e4, moved_carried]
      rfl

theorem Carries.colAt {m : Mat4} {P : ℕ → Col → Prop} {t t' : Tracer} (h : Carries m P t t') (g : ℕ) {c : Col} (hc : P 0 c) :
    t'.colAt g (carried m c) = (t.colAt g c).map (carried m) ∧ ∀ c', t.colAt g c = some c' → P g c' := by
  induction g with
  | zero =>
    refine ⟨rfl, fun c' e => ?_⟩
    simp only [Tracer.colAt, Option.some.injEq] at e
    rw [← e]; exact hc
  | succ g ih =>
    obtain ⟨i1, i2⟩ := ih
    simp only [Tracer.colAt, i1]
    cases hcol : t.colAt g c with
    | none => simp
    | some c1 =>
      have h1 := i2 c1 hcol
      simp only [Option.map_some, Option.bind_some]
      rw [h.colStep g h1]
      cases hst : t.colStep g c1 with
      | none => simp
      | some p =>
        refine ⟨by simp, fun c' e => ?_⟩
        simp only [Option.map_some, Option.some.injEq] at e
        rw [← e]
        exact h.step g c1 p.1 p.2 h1 hst

theorem Carries.rowAt {m : Mat4} {P : ℕ → Col → Prop} {t t' : Tracer} (h : Carries m P t t') (g : ℕ) {c : Col} (hc : P 0 c) :
    t'.rowAt g (carried m c) = (t.rowAt g c).map (carriedRow m) := by
  obtain ⟨i1, i2⟩ := h.colAt g hc
  simp only [Tracer.rowAt, i1]
  cases hcol : t.colAt g c with
  | none => simp
  | some c1 =>
    simp only [Option.map_some, Option.bind_some]
    rw [h.colStep g (i2 c1 hcol)]
    cases t.colStep g c1 <;> simp

theorem zipIdx_map_carried (m : Mat4) (l : List Col) (k : ℕ) :
    ((l.map (carried m)).zipIdx k).map (fun p => ({ p.1 with id := (p.2 : ℝ) } : Col)) =
    ((l.zipIdx k).map fun p => ({ p.1 with id := (p.2 : ℝ) } : Col)).map (carried m) := by
  induction l generalizing k with
  | nil => rfl
  | cons a l ih =>
    simp only [List.map_cons, List.zipIdx_cons]
    rw [ih]
    rfl

theorem Carries.sourceRays {m : Mat4} {P : ℕ → Col → Prop} {t t' : Tracer} (h : Carries m P t t') :
    sourceRays t'.sources t'.raysPerSource = (sourceRays t.sources t.raysPerSource).map (carried m) ∧
    ∀ c ∈ sourceRays t.sources t.raysPerSource, P 0 c := by
  refine ⟨?_, h.emits⟩
  unfold PyRayT.sourceRays
  rw [h.n, ← zipIdx_map_carried]
  congr 2
  have := h.sources
  generalize t.sources = l, t'.sources = l' at this
  induction this with
  | nil => rfl
  | cons e _ ih => simp only [List.flatMap_cons, List.map_append, e, ih]

theorem Carries.rowsAt {m : Mat4} {P : ℕ → Col → Prop} {t t' : Tracer} (h : Carries m P t t') (g : ℕ) :
    t'.rowsAt g = (t.rowsAt g).map (carriedRow m) := by
  obtain ⟨h1, h2⟩ := h.sourceRays
  unfold Tracer.rowsAt
  rw [h1]
  generalize PyRayT.sourceRays t.sources t.raysPerSource = l at h2
  induction l with
  | nil => rfl
  | cons c l ih =>
    rw [List.map_cons, List.filterMap_cons, List.filterMap_cons, h.rowAt g (h2 c (by simp))]
    have := ih fun c hc => h2 c (by simp [hc])
    cases t.rowAt g c with
    | none => simpa using this
    | some r => simp [this]

/-- the result of the carried system is the carried result -/
theorem Carries.frame {m : Mat4} {P : ℕ → Col → Prop} {t t' : Tracer} (h : Carries m P t t') {n k : ℕ} {u u' : Tracer}
    (h1 : Tracer.Traces n t u) (h2 : Tracer.Traces k t' u') : u'.frame = u.frame.map (carriedRow m) ∧ k = n := by
  obtain ⟨-, G, d1, n1, l1, e1⟩ := h1.result
  obtain ⟨-, H, d2, n2, l2, e2⟩ := h2.result
  have hr := h.rowsAt
  have hnil : ∀ k, t'.rowsAt k = [] ↔ t.rowsAt k = [] := fun k => by rw [hr, List.map_eq_nil_iff]
  have e : G = H := by
    rcases lt_trichotomy G H with hlt | hlt | hlt
    · rcases d1.stopped with hs | ⟨hp, hs⟩
      · exact absurd ((hnil G).2 hs) (n2 G hlt)
      · exact absurd (hs.trans h.limit.symm) (l2 G hp hlt)
    · exact hlt
    · rcases d2.stopped with hs | ⟨hp, hs⟩
      · exact absurd ((hnil H).1 hs) (n1 H hlt)
      · exact absurd (hs.trans h.limit) (l1 H hp hlt)
  subst e
  refine ⟨?_, ?_⟩
  · rw [d1.frame, d2.frame, List.map_flatMap]
    congr 1
    funext k
    exact hr k
  · rw [hnil, h.limit] at e2
    rcases e1 with ⟨a1, a2, a3⟩ | ⟨a1, a2, a3⟩ <;> rcases e2 with ⟨b1, b2, b3⟩ | ⟨b1, b2, b3⟩
    · omega
    · exact absurd b2 (a3 b1)
    · exact absurd a2 (b3 a1)
    · omega

/-- if one trace ends, so does the other -/
theorem Carries.ends {m : Mat4} {P : ℕ → Col → Prop} {t t' : Tracer} (h : Carries m P t t') {n : ℕ} {u : Tracer}
    (h1 : Tracer.Traces n t u) : ∃ k u', Tracer.Traces k t' u' := by
  obtain ⟨hs, G, d1, n1, l1, e1⟩ := h1.result
  have hs' : t'.sources ≠ [] := by
    intro e
    have := h.sources
    rw [e, List.forall₂_nil_right_iff] at this
    exact hs this
  rcases d1.stopped with hst | ⟨hp, hst⟩
  · exact Tracer.traces_of hs' G (Or.inl (by rw [h.rowsAt, hst]; rfl))
  · refine Tracer.traces_of hs' (G - 1) (Or.inr ?_)
    rw [h.limit, ← hst]
    congr 1
    omega

end PyRayT
