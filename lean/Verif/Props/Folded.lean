import Verif.Props.Telescope
import Verif.Props.MirrorBox

/-!
# Property C121: systems on any axis, folded by flat mirrors

C118 speaks of systems on the x axis. Here the axis is any line of space, and flat mirrors in any position may turn it between the surfaces.
-/

namespace PyRayT

open Classical Matrix Spec

/-! ### specification -/

/-- what light meets on its way: a surface of the centred system, or a flat mirror that folds the axis, given by its plane (the points whose product with
the unit vector `normal` is `offset`) -/
inductive Spec.Element where
  | surface (st : Station)
  | fold (normal : Vec4) (offset : ℝ)

/-- the system without the folds -/
def Spec.unfolded : List Element → List Station
  | [] => []
  | .surface st :: l => st :: unfolded l
  | .fold _ _ :: l => unfolded l

/-- the mirror image in a plane, as a matrix -/
def Spec.mirrorImage (N : Vec4) (c : ℝ) : Mat4 := fun i j => (1 : Mat4) i j - 2 * N i * (if j = 3 then -c else N j)

/-- Coordinates in which the (current) axis is the x axis are given by a matrix; behind a fold everything is seen in the mirror. -/
def Spec.lastFrame (m : Mat4) : List Element → Mat4
  | [] => m
  | .surface _ :: l => lastFrame m l
  | .fold N c :: l => lastFrame (m * mirrorImage N c) l

/-- A row ends on a surface of the system, in the coordinates given by the matrix (compare `Spec.Meets`). -/
def Spec.MeetsIn (s : Scene) (objs : List ℕ) (depth : ℕ) (m : Mat4) (st : Station) (r : Row) : Prop :=
  ∃ x, EndsOn s objs depth x r ∧
    ((∃ ρ c, EndsOnSphere s objs depth c ρ x r ∧ m *ᵥ c = point (st.vertex + 1 / st.curvature) 0 0 ∧ ρ ^ 2 * st.curvature ^ 2 = 1 ∧
        0 < ((m *ᵥ r.finish) 0 - (st.vertex + 1 / st.curvature)) * (st.vertex - (st.vertex + 1 / st.curvature))) ∨
      (st.curvature = 0 ∧ (m *ᵥ r.finish) 0 = st.vertex ∧ ∃ e : ℝ, e ^ 2 = 1 ∧ m *ᵥ surfaceNormal s.heap x r.finish = vector e 0 0)) ∧
    match st.optic with
    | .mirror => s.material x = .mirror
    | .into n => ∃ g, s.material x = .glass g ∧ (if 0 < dot4 r.dir (surfaceNormal s.heap x r.finish) then 1 else g.indexAt r.wavelength) = n

/-- A row ends on a mirror, at a point of the plane where the surface has the normal of the plane. -/
def Spec.FoldsAt (s : Scene) (objs : List ℕ) (depth : ℕ) (N : Vec4) (c : ℝ) (r : Row) : Prop :=
  ∃ x, EndsOn s objs depth x r ∧ s.material x = .mirror ∧ surfaceNormal s.heap x r.finish = N ∧ dot4 N r.finish = c

/-- A ray that is at `p` in row `r` meets the elements of the list one after the other, was last refracted or reflected at `q`, and goes on in row `r'`. -/
def Spec.PassesIn (frame : List Row) (s : Scene) (objs : List ℕ) (depth : ℕ) : Mat4 → List Element → Vec4 → Row → Vec4 → Row → Prop
  | _, [], p, r, q, r' => q = p ∧ r' = r
  | m, .surface st :: l, _, r, q, r' => MeetsIn s objs depth m st r ∧ ∃ r1 ∈ frame, Follows r r1 ∧ PassesIn frame s objs depth m l r.finish r1 q r'
  | m, .fold N c :: l, _, r, q, r' => FoldsAt s objs depth N c r ∧ ∃ r1 ∈ frame, Follows r r1 ∧ PassesIn frame s objs depth (m * mirrorImage N c) l r.finish r1 q r'

/-! ### mirror images -/

theorem mirrorImage_mulVec {N : Vec4} (h3 : N 3 = 0) (c : ℝ) (v : Vec4) (i : Fin 4) : (mirrorImage N c *ᵥ v) i = v i - 2 * (dot4 N v - c * v 3) * N i := by
  rw [mulVec4]
  fin_cases i <;> simp [mirrorImage, dot4, h3, Matrix.one_apply] <;> ring

theorem mirrorImage_isometry {N : Vec4} (h3 : N 3 = 0) (hN : dot4 N N = 1) (c : ℝ) : Isometry (mirrorImage N c) := by
  refine ⟨?_, fun v hv => ?_⟩
  · funext j
    fin_cases j <;> simp [mirrorImage, h3, Matrix.one_apply]
  · unfold norm4
    congr 1
    simp only [mirrorImage_mulVec h3, hv, mul_zero, sub_zero]
    simp only [dot4, h3, hv] at hN ⊢
    linear_combination (4 * (N 0 * v 0 + N 1 * v 1 + N 2 * v 2) ^ 2) * hN

theorem isometry_mul {m w : Mat4} (hm : Isometry m) (hw : Isometry w) : Isometry (m * w) := by
  refine ⟨?_, fun v hv => ?_⟩
  · funext j
    have := congrFun hw.1 j
    simp only [Matrix.mul_apply, Fin.sum_univ_four, hm.1]
    simp [this]
  · rw [← mulVec_mulVec, hm.2 _ (by rw [hw.three, hv]), hw.2 v hv]

theorem Spec.Isometry.sub {m : Mat4} (p q : Vec4) : m *ᵥ p - m *ᵥ q = m *ᵥ (p - q) := (mulVec_sub _ _ _).symm

/-- the laws of reflection and refraction do not depend on the coordinates -/
theorem Spec.Interacts.moved {m : Mat4} (hm : Isometry m) {o : Material} {lam n1 n2 : ℝ} {N u w : Vec4} (hN : N 3 = 0) (hu : u 3 = 0) (hw : w 3 = 0)
    (h : Interacts o lam N u n1 w n2) : Interacts o lam (m *ᵥ N) (m *ᵥ u) n1 (m *ᵥ w) n2 := by
  have d1 := hm.dot hu hN
  have d2 := hm.dot hw hN
  have lin : ∀ {a b : ℝ} {p q : Vec4}, (∀ i, p i = a * q i - b * N i) → ∀ i, (m *ᵥ p) i = a * (m *ᵥ q) i - b * (m *ᵥ N) i := by
    intro a b p q hp i
    have : p = a • q - b • N := funext fun i => by simp [hp i]
    rw [this, mulVec_sub, mulVec_smul, mulVec_smul]
    simp
  cases o with
  | absorber => exact h
  | mirror =>
    obtain ⟨h1, h2⟩ := h
    refine ⟨fun i => ?_, h2⟩
    rw [d1]
    simpa using lin (a := 1) (fun i => by rw [h1 i, one_mul]) i
  | glass g =>
    simp only [Interacts, sinTo, d1, d2, hm.2 _ hw] at h ⊢
    rcases h with ⟨k1, k2, k3, k4, k5, k6, k7⟩ | ⟨k1, k2, k3⟩
    · refine .inl ⟨k1, k2, fun i => ?_, k4, k5, k6, k7⟩
      have e : n1 • (u - dot4 u N • N) = (if 0 < dot4 u N then 1 else g.indexAt lam) • (w - dot4 w N • N) := funext fun i => by simpa using k3 i
      have := congrFun (congrArg (fun v => m *ᵥ v) e) i
      simpa only [mulVec_smul, mulVec_sub, Pi.smul_apply, Pi.sub_apply, smul_eq_mul] using this
    · refine .inr ⟨k1, fun i => ?_, k3⟩
      simpa using lin (a := 1) (fun i => by rw [k2 i, one_mul]) i

section
variable {argsort : List EReal → List ℕ} {fuel : ℕ} {s : Scene} {objs : List ℕ} {depth : ℕ} {sources : List (ℕ → List Col)} {n : ℕ} {limit : ℤ} {k : ℕ} {f : Tracer}

theorem Spec.MeetsIn.at (ha : IsArgsort argsort) (b : Bench argsort fuel s objs depth sources n)
    (ht : Tracer.Traces k (Tracer.new sources (objs.map (s.component argsort depth)) n limit) f) {r r1 : Row} (hr : r ∈ f.frame) (hr1 : r1 ∈ f.frame)
    (hf : Follows r r1) {m : Mat4} (hm : Isometry m) {st : Station} (h : MeetsIn s objs depth m st r) :
    AtStation st (m *ᵥ r.dir) r.index (m *ᵥ r.finish) (m *ᵥ r1.dir) r1.index := by
  obtain ⟨x, ⟨a, haa, id, hx, hs⟩, hgeo, hopt⟩ := h
  obtain ⟨hN, -, hI⟩ := b.optics ha ht hr hr1 hf haa hx hs
  have h3 := surfaceNormal_three s.heap x r.finish
  have hN' : dot4 (m *ᵥ surfaceNormal s.heap x r.finish) (m *ᵥ surfaceNormal s.heap x r.finish) = 1 := by rw [hm.dot h3 h3, hN]
  obtain ⟨e, cap⟩ : ∃ e, Cap st.vertex st.curvature e (m *ᵥ r.finish) (m *ᵥ surfaceNormal s.heap x r.finish) := by
    rcases hgeo with ⟨ρ, c, hsp, hc, hρ, hfront⟩ | ⟨h0, hq, e, he, hn⟩
    · obtain ⟨hd, -⟩ := finish_on_sphere ha b ht hr hsp
      obtain ⟨μ, hμ, hnorm⟩ := sphere_scale ha b ht hr hsp hN
      have c3 : c 3 = 1 := by rw [← hm.three c, hc]; rfl
      have f3 : (r.finish - c) 3 = 0 := by rw [Pi.sub_apply, c3]; exact sub_self _
      refine ⟨_, Cap.of_sphere hρ hμ (by rw [hm.three]; rfl) ?_ ?_ hfront hN'⟩
      · rw [hnorm, mulVec_smul, mulVec_sub, hc]
      · rw [← hc, ← mulVec_sub, hm.dot f3 f3, hd]
    · rw [h0]
      exact ⟨e, Cap.of_flat he hq hn⟩
  refine ⟨e, r.wavelength, _, cap, ?_⟩
  have hI := hI.moved hm h3 rfl rfl
  obtain ⟨v, κ, o⟩ := st
  cases o with
  | mirror =>
    have hm : s.material x = .mirror := hopt
    rw [hm] at hI
    exact hI
  | into n' =>
    obtain ⟨g, hg, hfar⟩ := hopt
    rw [hg] at hI
    exact ⟨g, hI, by rw [hm.dot rfl h3]; exact hfar⟩

/-- at a flat mirror: in the mirror the light goes straight on -/
theorem Spec.FoldsAt.straight (ha : IsArgsort argsort) (b : Bench argsort fuel s objs depth sources n)
    (ht : Tracer.Traces k (Tracer.new sources (objs.map (s.component argsort depth)) n limit) f) {r r1 : Row} (hr : r ∈ f.frame) (hr1 : r1 ∈ f.frame)
    (hf : Follows r r1) {N : Vec4} {c : ℝ} (h : FoldsAt s objs depth N c r) :
    Isometry (mirrorImage N c) ∧ mirrorImage N c *ᵥ r.finish = r.finish ∧ mirrorImage N c *ᵥ r1.dir = r.dir ∧ r1.index = r.index := by
  obtain ⟨x, ⟨a, haa, id, hx, hs⟩, hmat, hnorm, hc⟩ := h
  obtain ⟨hN, -, hI⟩ := b.optics ha ht hr hr1 hf haa hx hs
  have h3 := surfaceNormal_three s.heap x r.finish
  rw [hmat, hnorm] at hI
  rw [hnorm] at hN h3
  obtain ⟨h1, h2⟩ := hI
  refine ⟨mirrorImage_isometry h3 hN c, funext fun i => ?_, funext fun i => ?_, h2⟩
  · rw [mirrorImage_mulVec h3, hc, show r.finish 3 = 1 from rfl]; ring
  · have e : dot4 N r1.dir = -dot4 r.dir N := by
      have : dot4 N r1.dir = dot4 r.dir N - 2 * dot4 r.dir N * dot4 N N := by simp only [dot4, h1]; ring
      rw [this, hN]; ring
    rw [mirrorImage_mulVec h3, e, show r1.dir 3 = 0 from rfl, h1 i]; ring

theorem follows_vec (b : Bench argsort fuel s objs depth sources n) (ha : IsArgsort argsort)
    (ht : Tracer.Traces k (Tracer.new sources (objs.map (s.component argsort depth)) n limit) f) {r r1 : Row} (hr : r ∈ f.frame) (hr1 : r1 ∈ f.frame)
    (hf : Follows r r1) : ∃ d μ : ℝ, r.finish = r.begin + d • r.dir ∧ r1.begin = r.finish + μ • r1.dir := by
  obtain ⟨d, μ, h1, h2⟩ := follows_start b ha ht hr hr1 hf
  have e1 : r.finish = r.begin + d • r.dir := by
    funext i
    fin_cases i
    · exact h1 0
    · exact h1 1
    · exact h1 2
    · show (1 : ℝ) = 1 + d * 0
      ring
  refine ⟨d, μ, e1, ?_⟩
  rw [e1]
  funext i
  fin_cases i
  · exact h2 0
  · exact h2 1
  · exact h2 2
  · show (1 : ℝ) = 1 + d * 0 + μ * 0
    ring

theorem Spec.PassesIn.through (ha : IsArgsort argsort) (b : Bench argsort fuel s objs depth sources n)
    (ht : Tracer.Traces k (Tracer.new sources (objs.map (s.component argsort depth)) n limit) f) : ∀ {l : List Element} {m : Mat4} {r : Row} {p o q : Vec4} {r' : Row}, r ∈ f.frame →
    Isometry m → (∃ μ : ℝ, r.begin = p + μ • r.dir) → (∃ μ : ℝ, m *ᵥ p = o + μ • (m *ᵥ r.dir)) → PassesIn f.frame s objs depth m l p r q r' →
    r' ∈ f.frame ∧ Isometry (lastFrame m l) ∧ ∃ (μ : ℝ) (q0 : Vec4), lastFrame m l *ᵥ q = q0 + μ • (lastFrame m l *ᵥ r'.dir) ∧
      PathThrough (unfolded l) o (m *ᵥ r.dir) r.index q0 (lastFrame m l *ᵥ r'.dir) r'.index := by
  intro l
  induction l with
  | nil =>
    rintro m r p o q r' hr hm - ⟨μ, hμ⟩ ⟨rfl, rfl⟩
    exact ⟨hr, hm, μ, o, hμ, rfl, rfl, rfl⟩
  | cons x l ih =>
    cases x with
    | surface st =>
      rintro m r p o q r' hr hm ⟨μ, hμ⟩ ⟨ν, hν⟩ ⟨hmeet, r1, hr1, hfol, hrest⟩
      obtain ⟨d, μ', hfin, hst⟩ := follows_vec b ha ht hr hr1 hfol
      obtain ⟨hr', hm', κ, q0, hq0, hpath⟩ := ih (o := m *ᵥ r.finish) hr1 hm ⟨μ', hst⟩ ⟨0, by rw [zero_smul, add_zero]⟩ hrest
      have hq : ∀ i, (m *ᵥ r.finish) i = o i + (ν + (μ + d)) * (m *ᵥ r.dir) i := fun i => by
        rw [hfin, hμ, mulVec_add, mulVec_add, mulVec_smul, mulVec_smul, hν]
        simp only [Pi.add_apply, Pi.smul_apply, smul_eq_mul]
        ring
      refine ⟨hr', hm', κ, q0, hq0, ν + (μ + d), r1.index, m *ᵥ r.finish, m *ᵥ r1.dir, ⟨hq 0, hq 1, hq 2⟩, by rw [hm.three]; rfl, ?_, hmeet.at ha b ht hr hr1 hfol hm, hpath⟩
      rw [hm.dot rfl rfl]
      exact b.unit ha ht hr1
    | fold N c =>
      rintro m r p o q r' hr hm ⟨μ, hμ⟩ ⟨ν, hν⟩ ⟨hfold, r1, hr1, hfol, hrest⟩
      obtain ⟨d, μ', hfin, hst⟩ := follows_vec b ha ht hr hr1 hfol
      obtain ⟨hS, h1, h2, h3⟩ := hfold.straight ha b ht hr hr1 hfol
      have e2 : (m * mirrorImage N c) *ᵥ r1.dir = m *ᵥ r.dir := by rw [← mulVec_mulVec, h2]
      have := ih (o := o) hr1 (isometry_mul hm hS) ⟨μ', hst⟩ ⟨ν + (μ + d), by
        rw [e2, ← mulVec_mulVec, h1, hfin, hμ, mulVec_add, mulVec_add, mulVec_smul, mulVec_smul, hν]
        module⟩ hrest
      rw [e2, h3] at this
      exact this

end

/-! ### the theorems -/

theorem Spec.PassesIn.point {frame : List Row} {s : Scene} {objs : List ℕ} {depth : ℕ} : ∀ {l : List Element} {m : Mat4} {p q : Vec4} {r r' : Row}, p 3 = 1 →
    PassesIn frame s objs depth m l p r q r' → q 3 = 1
  | [], _, _, _, _, _, hp, h => by rw [h.1]; exact hp
  | .surface _ :: _, _, _, _, _, _, _, ⟨_, _, _, _, h⟩ => h.point rfl
  | .fold _ _ :: _, _, _, _, _, _, _, ⟨_, _, _, _, h⟩ => h.point rfl

/-- **C121.** Take any list of spherical and flat surfaces on an axis, as in C118, and let flat mirrors in any position fold the axis any number of times. In coordinates in
which the axis is the x axis at the start (any isometry `m`), for every ε there is a δ, which depends only on the system without the folds, such that on every bench and in every trace: a ray that
starts closer than δ to the axis with a slope below δ and meets surfaces and folding mirrors in this order obeys Gaussian optics of the system without the folds behind it, in the coordinates seen in the
mirrors: at a point of its path closer than ε to the vertex of the last surface, height and (index × slope) depend on those at the start by a matrix of determinant 1 with
entries closer than ε to those of Gaussian optics. -/
theorem C121_gauss {us : List Station} (hl : ∀ st ∈ us, ∀ n, st.optic = .into n → 0 < n) {σ n x0 ε : ℝ} (hσ : σ ^ 2 = 1) (hn : 0 < n) (hε : 0 < ε) :
    ∃ δ > 0, ∀ (argsort : List EReal → List ℕ) (fuel : ℕ) (s : Scene) (objs : List ℕ) (depth : ℕ) (sources : List (ℕ → List Col)) (N : ℕ) (limit : ℤ) (k : ℕ)
      (f : Tracer), IsArgsort argsort → Bench argsort fuel s objs depth sources N →
      Tracer.Traces k (Tracer.new sources (objs.map (s.component argsort depth)) N limit) f →
      ∀ (l : List Element) (m : Mat4), unfolded l = us → Isometry m →
      ∀ r ∈ f.frame, ∀ (q : Vec4) (r' : Row), r.index = n → 0 < σ * (m *ᵥ r.dir) 0 → (m *ᵥ r.begin) 0 = x0 → |(m *ᵥ r.begin) 1| < δ → |(m *ᵥ r.begin) 2| < δ →
      |(m *ᵥ r.dir) 1| < δ → |(m *ᵥ r.dir) 2| < δ → PassesIn f.frame s objs depth m l r.begin r q r' →
      r' ∈ f.frame ∧ r'.index = lastMedium n us ∧ Isometry (lastFrame m l) ∧ 0 < lastSense σ us * (lastFrame m l *ᵥ r'.dir) 0 ∧
      ∃ (μ : ℝ) (q0 : Vec4), q0 = lastFrame m l *ᵥ (q + μ • r'.dir) ∧ |q0 0 - lastVertex x0 us| < ε ∧
      ∃ M : Matrix (Fin 2) (Fin 2) ℝ, M.det = 1 ∧ (∀ i j, |M i j - gauss σ n x0 us i j| < ε) ∧
        ![q0 1, r'.index * (lastFrame m l *ᵥ r'.dir) 1] = M *ᵥ ![(m *ᵥ r.begin) 1, n * (m *ᵥ r.dir) 1] ∧
        ![q0 2, r'.index * (lastFrame m l *ᵥ r'.dir) 2] = M *ᵥ ![(m *ᵥ r.begin) 2, n * (m *ᵥ r.dir) 2] := by
  obtain ⟨δ, h0, h⟩ := PathThrough.gauss (l := us) hl (x := x0) hσ hn hε
  refine ⟨δ, h0, ?_⟩
  rintro argsort fuel s objs depth sources N limit k f ha b ht l m rfl hm r hr q r' rfl hsense hx y1 y2 t1 t2 hp
  obtain ⟨hr', hm', μ, q0, hq0, hpath⟩ := hp.through ha b ht (o := m *ᵥ r.begin) hr hm ⟨0, by rw [zero_smul, add_zero]⟩ ⟨0, by rw [zero_smul, add_zero]⟩
  obtain ⟨e1, e2, M, e3, e4, ⟨e5, e6⟩, v0, -, -⟩ := h r'.index (m *ᵥ r.begin) (m *ᵥ r.dir) q0 (lastFrame m l *ᵥ r'.dir) (by rw [hx]; simpa using h0) y1 y2 t1 t2
    (by rw [hm.three]; rfl) (by rw [hm.dot rfl rfl]; exact b.unit ha ht hr) hsense hpath
  refine ⟨hr', e1, hm', e2, -μ, q0, ?_, v0, M, e3, e4, e5, e6⟩
  rw [mulVec_add, mulVec_smul, hq0]
  module

/-- **C121, images.** Light from the point `x0` of the axis that goes through a folded system meets the axis seen in the mirrors again at the Gaussian image, to any accuracy. -/
theorem C121_image {us : List Station} (hl : ∀ st ∈ us, ∀ n, st.optic = .into n → 0 < n) {σ n x0 ε : ℝ} (hσ : σ ^ 2 = 1) (hn : 0 < n) (hε : 0 < ε)
    (hne : gauss σ n x0 us 1 1 ≠ 0) :
    ∃ δ > 0, ∀ (argsort : List EReal → List ℕ) (fuel : ℕ) (s : Scene) (objs : List ℕ) (depth : ℕ) (sources : List (ℕ → List Col)) (N : ℕ) (limit : ℤ) (k : ℕ)
      (f : Tracer), IsArgsort argsort → Bench argsort fuel s objs depth sources N →
      Tracer.Traces k (Tracer.new sources (objs.map (s.component argsort depth)) N limit) f →
      ∀ (l : List Element) (m : Mat4), unfolded l = us → Isometry m →
      ∀ r ∈ f.frame, ∀ (q : Vec4) (r' : Row), r.index = n → 0 < σ * (m *ᵥ r.dir) 0 → m *ᵥ r.begin = point x0 0 0 → |(m *ᵥ r.dir) 1| < δ → |(m *ᵥ r.dir) 2| < δ →
      PassesIn f.frame s objs depth m l r.begin r q r' →
      ∃ τ X : ℝ, |X - (lastVertex x0 us - lastSense σ us * lastMedium n us * (gauss σ n x0 us 0 1 / gauss σ n x0 us 1 1))| < ε ∧
        lastFrame m l *ᵥ (q + τ • r'.dir) = point X 0 0 := by
  obtain ⟨η, hη, near⟩ := crossing_near (lastVertex x0 us) (lastSense σ us) (lastMedium n us) (gauss σ n x0 us 0 1) (gauss σ n x0 us 1 1) hne hε
  obtain ⟨δ, h0, h⟩ := PathThrough.gauss (l := us) hl (x := x0) hσ hn (lt_min (half_pos hη) (by norm_num : (0 : ℝ) < 1 / 2))
  refine ⟨δ, h0, ?_⟩
  rintro argsort fuel s objs depth sources N limit k f ha b ht l m rfl hm r hr q r' rfl hsense hstart t1 t2 hp
  obtain ⟨hr', hm', ν, q0, hq0, hpath⟩ := hp.through ha b ht (o := m *ᵥ r.begin) hr hm ⟨0, by rw [zero_smul, add_zero]⟩ ⟨0, by rw [zero_smul, add_zero]⟩
  have s0 : (m *ᵥ r.begin) 0 = x0 := by rw [hstart]; rfl
  have s1 : (m *ᵥ r.begin) 1 = 0 := by rw [hstart]; rfl
  have s2 : (m *ᵥ r.begin) 2 = 0 := by rw [hstart]; rfl
  obtain ⟨hm0, hs, M, -, hM, ⟨k1, k2⟩, v0, v1, v2⟩ := h r'.index (m *ᵥ r.begin) (m *ᵥ r.dir) q0 (lastFrame m l *ᵥ r'.dir) (by rw [s0]; simpa using h0) (by rw [s1]; simpa using h0)
    (by rw [s2]; simpa using h0) t1 t2
    (by rw [hm.three]; rfl) (by rw [hm.dot rfl rfl]; exact b.unit ha ht hr) hsense hpath
  have lt : min (η / 2) (1 / 2) < η := (min_le_left _ _).trans_lt (by linarith)
  have hw0 := axial_near (lastSense_sq _ hσ) (lt_min (half_pos hη) (by norm_num)) (min_le_right _ _) (by rw [hm'.three]; rfl) (by rw [hm'.dot rfl rfl]; exact b.unit ha ht hr') hs v1 v2
  obtain ⟨hC, hX⟩ := near (q0 0) ((lastFrame m l *ᵥ r'.dir) 0) (M 0 1) (M 1 1) (v0.trans lt) (hw0.trans_lt lt) ((hM 0 1).trans lt) ((hM 1 1).trans lt)
  have cross : ∀ {a b c d : ℝ}, ![a, r'.index * b] = M *ᵥ ![c, r.index * d] → c = 0 → a + -(r'.index * M 0 1 / M 1 1) * b = 0 := by
    intro a b c d e hz
    have e0 : a = M 0 0 * c + M 0 1 * (r.index * d) := by simpa [Matrix.mulVec, dotProduct, Fin.sum_univ_two] using congrFun e 0
    have e1 : r'.index * b = M 1 0 * c + M 1 1 * (r.index * d) := by simpa [Matrix.mulVec, dotProduct, Fin.sum_univ_two] using congrFun e 1
    rw [hz] at e0 e1
    field_simp
    linear_combination M 1 1 * e0 - M 0 1 * e1
  have q3 : q 3 = 1 := hp.point rfl
  have at' : ∀ i, (lastFrame m l *ᵥ (q + (-(r'.index * M 0 1 / M 1 1) - ν) • r'.dir)) i = q0 i + -(r'.index * M 0 1 / M 1 1) * (lastFrame m l *ᵥ r'.dir) i := fun i => by
    rw [mulVec_add, mulVec_smul, hq0]
    simp only [Pi.add_apply, Pi.smul_apply, smul_eq_mul]
    ring
  refine ⟨-(r'.index * M 0 1 / M 1 1) - ν, q0 0 + -(r'.index * M 0 1 / M 1 1) * (lastFrame m l *ᵥ r'.dir) 0, ?_, funext fun j => ?_⟩
  rotate_left
  · fin_cases j
    · exact at' 0
    · exact (at' 1).trans (cross k1 s1)
    · exact (at' 2).trans (cross k2 s2)
    · show (lastFrame m l *ᵥ _) 3 = 1
      rw [hm'.three, Pi.add_apply, Pi.smul_apply, q3, show r'.dir 3 = 0 from rfl, smul_zero, add_zero]
  · rw [← hm0] at hX ⊢
    convert hX using 2
    ring

/-- **C121, focal points.** Light parallel to the axis, close enough to it, that goes through a folded system with power meets the axis seen in the mirrors at the Gaussian focal point, to any accuracy. -/
theorem C121_focus {us : List Station} (hl : ∀ st ∈ us, ∀ n, st.optic = .into n → 0 < n) {σ n x0 ε : ℝ} (hσ : σ ^ 2 = 1) (hn : 0 < n) (hε : 0 < ε)
    (hne : gauss σ n x0 us 1 0 ≠ 0) :
    ∃ δ > 0, ∀ (argsort : List EReal → List ℕ) (fuel : ℕ) (s : Scene) (objs : List ℕ) (depth : ℕ) (sources : List (ℕ → List Col)) (N : ℕ) (limit : ℤ) (k : ℕ)
      (f : Tracer), IsArgsort argsort → Bench argsort fuel s objs depth sources N →
      Tracer.Traces k (Tracer.new sources (objs.map (s.component argsort depth)) N limit) f →
      ∀ (l : List Element) (m : Mat4), unfolded l = us → Isometry m →
      ∀ r ∈ f.frame, ∀ (q : Vec4) (r' : Row), r.index = n → m *ᵥ r.dir = vector σ 0 0 → (m *ᵥ r.begin) 0 = x0 → |(m *ᵥ r.begin) 1| < δ → |(m *ᵥ r.begin) 2| < δ →
      PassesIn f.frame s objs depth m l r.begin r q r' →
      ∃ τ X : ℝ, |X - (lastVertex x0 us - lastSense σ us * lastMedium n us * (gauss σ n x0 us 0 0 / gauss σ n x0 us 1 0))| < ε ∧
        lastFrame m l *ᵥ (q + τ • r'.dir) = point X 0 0 := by
  obtain ⟨η, hη, near⟩ := crossing_near (lastVertex x0 us) (lastSense σ us) (lastMedium n us) (gauss σ n x0 us 0 0) (gauss σ n x0 us 1 0) hne hε
  obtain ⟨δ, h0, h⟩ := PathThrough.gauss (l := us) hl (x := x0) hσ hn (lt_min (half_pos hη) (by norm_num : (0 : ℝ) < 1 / 2))
  refine ⟨δ, h0, ?_⟩
  rintro argsort fuel s objs depth sources N limit k f ha b ht l m rfl hm r hr q r' rfl htilt s0 y1 y2 hp
  obtain ⟨hr', hm', ν, q0, hq0, hpath⟩ := hp.through ha b ht (o := m *ᵥ r.begin) hr hm ⟨0, by rw [zero_smul, add_zero]⟩ ⟨0, by rw [zero_smul, add_zero]⟩
  have t1 : (m *ᵥ r.dir) 1 = 0 := by rw [htilt]; rfl
  have t2 : (m *ᵥ r.dir) 2 = 0 := by rw [htilt]; rfl
  have hsense : 0 < σ * (m *ᵥ r.dir) 0 := by rw [htilt, show vector σ 0 0 0 = σ from rfl, ← pow_two, hσ]; exact one_pos
  obtain ⟨hm0, hs, M, -, hM, ⟨k1, k2⟩, v0, v1, v2⟩ := h r'.index (m *ᵥ r.begin) (m *ᵥ r.dir) q0 (lastFrame m l *ᵥ r'.dir) (by rw [s0]; simpa using h0) y1 y2
    (by rw [t1]; simpa using h0) (by rw [t2]; simpa using h0)
    (by rw [hm.three]; rfl) (by rw [hm.dot rfl rfl]; exact b.unit ha ht hr) hsense hpath
  have lt : min (η / 2) (1 / 2) < η := (min_le_left _ _).trans_lt (by linarith)
  have hw0 := axial_near (lastSense_sq _ hσ) (lt_min (half_pos hη) (by norm_num)) (min_le_right _ _) (by rw [hm'.three]; rfl) (by rw [hm'.dot rfl rfl]; exact b.unit ha ht hr') hs v1 v2
  obtain ⟨hC, hX⟩ := near (q0 0) ((lastFrame m l *ᵥ r'.dir) 0) (M 0 0) (M 1 0) (v0.trans lt) (hw0.trans_lt lt) ((hM 0 0).trans lt) ((hM 1 0).trans lt)
  have cross : ∀ {a b c d : ℝ}, ![a, r'.index * b] = M *ᵥ ![c, r.index * d] → d = 0 → a + -(r'.index * M 0 0 / M 1 0) * b = 0 := by
    intro a b c d e hz
    have e0 : a = M 0 0 * c + M 0 1 * (r.index * d) := by simpa [Matrix.mulVec, dotProduct, Fin.sum_univ_two] using congrFun e 0
    have e1 : r'.index * b = M 1 0 * c + M 1 1 * (r.index * d) := by simpa [Matrix.mulVec, dotProduct, Fin.sum_univ_two] using congrFun e 1
    rw [hz] at e0 e1
    field_simp
    linear_combination M 1 0 * e0 - M 0 0 * e1
  have q3 : q 3 = 1 := hp.point rfl
  have at' : ∀ i, (lastFrame m l *ᵥ (q + (-(r'.index * M 0 0 / M 1 0) - ν) • r'.dir)) i = q0 i + -(r'.index * M 0 0 / M 1 0) * (lastFrame m l *ᵥ r'.dir) i := fun i => by
    rw [mulVec_add, mulVec_smul, hq0]
    simp only [Pi.add_apply, Pi.smul_apply, smul_eq_mul]
    ring
  refine ⟨-(r'.index * M 0 0 / M 1 0) - ν, q0 0 + -(r'.index * M 0 0 / M 1 0) * (lastFrame m l *ᵥ r'.dir) 0, ?_, funext fun j => ?_⟩
  rotate_left
  · fin_cases j
    · exact at' 0
    · exact (at' 1).trans (cross k1 t1)
    · exact (at' 2).trans (cross k2 t2)
    · show (lastFrame m l *ᵥ _) 3 = 1
      rw [hm'.three, Pi.add_apply, Pi.smul_apply, q3, show r'.dir 3 = 0 from rfl, smul_zero, add_zero]
  · rw [← hm0] at hX ⊢
    convert hX using 2
    ring

/-- **C121, flat mirrors alone.** A ray that meets any number of flat mirrors goes straight on in the coordinates seen in the mirrors: the direction is exactly that of the start, and it is on the line of the
start. -/
theorem C121_unfold {argsort : List EReal → List ℕ} (ha : IsArgsort argsort) {fuel : ℕ} {s : Scene} {objs : List ℕ} {depth : ℕ} {sources : List (ℕ → List Col)} {N : ℕ} {limit : ℤ} {k : ℕ}
    {f : Tracer} (b : Bench argsort fuel s objs depth sources N) (ht : Tracer.Traces k (Tracer.new sources (objs.map (s.component argsort depth)) N limit) f)
    {l : List Element} (hl : unfolded l = []) {r r' : Row} {q : Vec4} (hr : r ∈ f.frame) (hp : PassesIn f.frame s objs depth 1 l r.begin r q r') :
    r' ∈ f.frame ∧ r'.index = r.index ∧ lastFrame 1 l *ᵥ r'.dir = r.dir ∧ ∃ μ : ℝ, lastFrame 1 l *ᵥ q = r.begin + μ • r.dir := by
  have hiso : Isometry (1 : Mat4) := isometry_of_rigid rigid_one
  obtain ⟨hr', hm', μ, q0, hq0, hpath⟩ := hp.through ha b ht (o := r.begin) hr hiso ⟨0, by rw [zero_smul, add_zero]⟩ ⟨0, by rw [zero_smul, add_zero, one_mulVec]⟩
  rw [hl, one_mulVec] at hpath
  obtain ⟨rfl, h2, h3⟩ := hpath
  exact ⟨hr', h3, h2, μ, by rw [hq0, h2]⟩

/-- **C121, without folds.** On the x axis and without folds the systems of C121 are those of C118; so the lenses of `C118_thick_lens` are examples of all the theorems here. -/
theorem C121_unfolded {frame : List Row} {s : Scene} {objs : List ℕ} {depth : ℕ} : ∀ (l : List Station) (p q : Vec4) (r r' : Row),
    unfolded (l.map .surface) = l ∧ lastFrame 1 (l.map .surface) = 1 ∧ (PassesIn frame s objs depth 1 (l.map .surface) p r q r' ↔ Passes frame s objs depth l p r q r')
  | [], _, _, _, _ => ⟨rfl, rfl, Iff.rfl⟩
  | st :: l, p, q, r, r' => by
    have hM : MeetsIn s objs depth 1 st r ↔ Meets s objs depth st r := by
      simp only [MeetsIn, Meets, one_mulVec]
      constructor
      · rintro ⟨x, hx, h | h, ho⟩
        · obtain ⟨ρ, c, h1, rfl, h2⟩ := h
          exact ⟨x, hx, .inl ⟨ρ, h1, h2⟩, ho⟩
        · exact ⟨x, hx, .inr h, ho⟩
      · rintro ⟨x, hx, h | h, ho⟩
        · obtain ⟨ρ, h1, h2⟩ := h
          exact ⟨x, hx, .inl ⟨ρ, _, h1, rfl, h2⟩, ho⟩
        · exact ⟨x, hx, .inr h, ho⟩
    have ih := fun r1 => C121_unfolded (frame := frame) (s := s) (objs := objs) (depth := depth) l r.finish q r1 r'
    refine ⟨congrArg (st :: ·) (ih r).1, (ih r).2.1, ?_⟩
    simp only [List.map_cons, PassesIn, Passes, hM, (ih _).2.2]

/-! ## Examples -/

/-- A spherical mirror round about the origin with the z axis as the axis of the system, and a ray from the point -2 of that axis with any small slope. -/
theorem upright_room {argsort : List EReal → List ℕ} (ha : IsArgsort argsort) :
    ∃ s : Scene, ∀ δ > 0, ∃ (objs : List ℕ) (sources : List (ℕ → List Col)) (k : ℕ) (f : Tracer), Bench argsort 3 s objs 1 sources 1 ∧
      Tracer.Traces k (Tracer.new sources (objs.map (s.component argsort 1)) 1 5) f ∧
      ∃ e h : ℝ, 0 < e ∧ ∃ r ∈ f.frame, ∃ (q : Vec4) (r' : Row), r.index = 1 ∧ turn *ᵥ r.dir = vector e h 0 ∧ turn *ᵥ r.begin = point (-2) 0 0 ∧ h ≠ 0 ∧ 0 < h ∧ h < δ ∧
        PassesIn f.frame s objs 1 turn [.surface ⟨10, -1 / 10, .mirror⟩] r.begin r q r' := by
  obtain ⟨s0, -, h0, hsz, hk0, hw0, hm0⟩ := room_made (argsort := argsort) (fuel := 3)
  obtain ⟨s, -, c⟩ := (Ctx.start h0).surface (.sphere 10) (some .mirror)
  obtain ⟨hdesc, -, haddr, -⟩ := c.parts _ List.mem_cons_self
  set B := s0.heap.size with hB
  simp only [Desc] at hdesc
  obtain ⟨hkB, hwB, -, hmB⟩ := hdesc
  have hmB := hmB _ rfl
  obtain ⟨-, hltB⟩ := haddr B (by simp [CTree.addrs])
  refine ⟨s, fun δ hδ => ?_⟩
  obtain ⟨h, hh⟩ : ∃ h, h = min δ 1 / 2 := ⟨_, rfl⟩
  have hm1 : 0 < min δ 1 := lt_min hδ one_pos
  have hpos : 0 < h := by rw [hh]; linarith
  have hlt : h < δ := by have := min_le_left δ 1; rw [hh]; linarith
  have hle : h ≤ 1 / 2 := by have := min_le_right δ 1; rw [hh]; linarith
  obtain ⟨e, he⟩ : ∃ e, e = √(1 - h ^ 2) := ⟨_, rfl⟩
  have e2 : e ^ 2 = 1 - h ^ 2 := by rw [he, Real.sq_sqrt (by nlinarith)]
  have epos : 0 < e := by rw [he]; exact Real.sqrt_pos.2 (by nlinarith)
  have e1 : e ≤ 1 := by nlinarith
  obtain ⟨D, hD⟩ : ∃ D, D = √(4 * e ^ 2 + 96) := ⟨_, rfl⟩
  have D2 : D ^ 2 = 4 * e ^ 2 + 96 := by rw [hD, Real.sq_sqrt (by positivity)]
  have D0 : 0 ≤ D := by rw [hD]; exact Real.sqrt_nonneg _
  have D1 : D ≤ 10 := by nlinarith
  have Dlow : 2 * e ≤ D := by nlinarith
  set ray : Ray := ⟨point 0 0 (-2), vector h 0 e⟩ with hray
  set col : Col := ⟨ray, 0, 100, 0.633, 1, 0⟩ with hcol
  have b : Bench argsort 3 s [B, 0] 1 [fun _ => [col]] 1 := by
    refine room_bench hsz hk0 hm0 c (by simp [Made.depth]) (by simp [Made.leaves, Sized]) (m := .mirror) (by simp [Made.leaves]) ?_ one_pos ?_
    · exact ⟨rfl, rfl, rfl, by simp [hcol, hray, norm4, vector, e2]⟩
    · rintro g hg
      cases hg
  have hinv := reaches_inv argsort empty_inv b.history.reaches
  have hkp : (s.heap.obj 0).kind = .prim (.sphere 1000) := (c.old 0 hsz).1.trans hk0
  have hTp : (s.heap.obj 0).objT = 1 := by
    rw [(hinv.synced 0 (b.exist 0 (by simp))).2.1, (c.old 0 hsz).2.1, hw0, inv_one]
  have hTB : (s.heap.obj B).objT = 1 := by rw [(hinv.synced B hltB).2.1, hwB, inv_one]
  have hidB : surfaceIds 1 s.heap B = [((s.heap.obj B).oid, B)] := by simp only [surfaceIds, hkB]
  have hiso : Isometry (1 : Mat4) := ⟨by
    funext i
    fin_cases i <;> simp [Matrix.one_apply], fun v _ => by rw [one_mulVec]⟩
  obtain ⟨k, t', htr, -, -, -⟩ := C26_terminates (Tracer.new [fun _ => [col]] ([B, 0].map (s.component argsort 1)) 1 5) (by simp [Tracer.new]) (by simp [Tracer.new])
    (by simp [Tracer.new, hcol])
  have hall : (intersectObj argsort 1 s.heap B ray).1 = [((2 * e - D : ℝ) : EReal), ((2 * e + D : ℝ) : EReal)] := by
    have hmap : ray.map 1 = ray := by simp [Ray.map]
    simp only [intersectObj, hkB, leafIntersect, hTB, Prim.intersect, hmap]
    have hi : sphereIntersect 10 ray = (((2 * e + D : ℝ) : EReal), ((2 * e - D : ℝ) : EReal)) := by
      have ex : ray.d 0 = h ∧ ray.d 1 = 0 ∧ ray.d 2 = e ∧ ray.o 0 = 0 ∧ ray.o 1 = 0 ∧ ray.o 2 = -2 := ⟨rfl, rfl, rfl, rfl, rfl, rfl⟩
      obtain ⟨e1, e2', e3, e4, e5, e6⟩ := ex
      unfold sphereIntersect
      simp only [e1, e2', e3, e4, e5, e6]
      have hA : h * h + 0 * 0 + e * e = 1 := by linear_combination e2
      rw [hA, if_neg (by norm_num), polyRoots, show (2 * (h * 0 + 0 * 0 + e * -2) : ℝ) ^ 2 - 4 * 1 * (0 * 0 + 0 * 0 + -2 * -2 - 10 ^ 2) = (2 * D) ^ 2 by
        linear_combination -4 * D2, if_pos (by positivity), max_eq_right (by positivity), Real.sqrt_sq (by positivity)]
      congr 2 <;> ring
    rw [hi]
    have hle : ((2 * e - D : ℝ) : EReal) ≤ ((2 * e + D : ℝ) : EReal) := EReal.coe_le_coe_iff.2 (by linarith)
    simp only [sort2, min_eq_right hle, max_eq_left hle]
  have hhit : ((2 * e + D : ℝ) : EReal) ∈ (intersectObj argsort 1 s.heap B ray).1 := by rw [hall]; simp
  refine ⟨[B, 0], _, k, t', b, htr, e, h, epos, ?_⟩
  rcases C89_starts b ha htr (i := 0) (c := col) rfl with ⟨r, hr, g0, -, hray0, -, hi0⟩ | hmiss
  swap
  · exact absurd ⟨by exact_mod_cast (by linarith : (0 : ℝ) < 2 * e + D), EReal.coe_lt_top _⟩ (hmiss (s.component argsort 1 B) (by simp) _ hhit)
  have o : ∀ i : Fin 3, r.start i = ![0, 0, -2] i := fun i => by
    have : r.start i = ray.o i.castSucc := by rw [show ray = rowRay r from hray0.symm]; fin_cases i <;> rfl
    rw [this]; fin_cases i <;> rfl
  have d : ∀ i : Fin 3, r.tilt i = ![h, 0, e] i := fun i => by
    have : r.tilt i = ray.d i.castSucc := by rw [show ray = rowRay r from hray0.symm]; fin_cases i <;> rfl
    rw [this]; fin_cases i <;> rfl
  have d0 : r.tilt 0 = h := d 0
  have d1 : r.tilt 1 = 0 := d 1
  have d2 : r.tilt 2 = e := d 2
  obtain ⟨⟨e', he', hs⟩, r', hr', hf⟩ := room_step b ha htr hkp hTp hr (by
      rw [hidB]; simp [hmB]) (by
      intro i
      rw [o i]
      fin_cases i <;> norm_num [abs_le]) ⟨2 * e + D, by linarith, by linarith, hray0 ▸ hhit⟩ (by rw [g0]; norm_num)
  rw [hidB, List.mem_singleton] at he'
  subst he'
  have hx : ((s.heap.obj B).oid, B) ∈ surfaceIds 1 s.heap B := by rw [hidB]; simp
  have hsphere : EndsOnSphere s [B, 0] 1 (point 0 0 0) 10 B r := ⟨B, by simp, _, hx, hs, hkB, hwB ▸ hiso, by rw [hwB, one_mulVec]⟩
  have hdir : turn *ᵥ r.dir = vector e h 0 := by
    rw [show r.dir = vector h 0 e by rw [← d0, ← d1, ← d2]; rfl]
    funext i
    fin_cases i <;> simp [turn, vector, Matrix.mulVec, dotProduct, Fin.sum_univ_four, Matrix.cons_val]
  have hpt : ∀ a b c : ℝ, turn *ᵥ point a b c = point c a b := fun a b c => by
    funext i
    fin_cases i <;> simp [turn, point, Matrix.mulVec, dotProduct, Fin.sum_univ_four, Matrix.cons_val]
  have hbeg : turn *ᵥ r.begin = point (-2) 0 0 := by
    rw [show r.begin = point 0 0 (-2) by rw [Row.begin, show r.start 0 = 0 from o 0, show r.start 1 = 0 from o 1, show r.start 2 = -2 from o 2], hpt]
  refine ⟨r, hr, r.finish, r', hi0, hdir, hbeg, hpos.ne', hpos, hlt, ?_, r', hr', hf, rfl, rfl⟩
  have hc : point (10 + 1 / (-1 / 10 : ℝ)) 0 0 = point 0 0 0 := by norm_num
  obtain ⟨w, w0, -, hat⟩ := row_arrives (b.ok ha 5) htr hr
  have hfin : r.finish = point (w * h) 0 (-2 + w * e) := by
    rw [← hat]
    funext i
    fin_cases i
    · show r.start 0 + w * r.tilt 0 = w * h
      rw [d0, show r.start 0 = 0 from o 0, zero_add]
    · show r.start 1 + w * r.tilt 1 = 0
      rw [d1, show r.start 1 = 0 from o 1, mul_zero, zero_add]
    · show r.start 2 + w * r.tilt 2 = -2 + w * e
      rw [d2, show r.start 2 = -2 from o 2]
    · show (1 : ℝ) + w * 0 = 1
      rw [mul_zero, add_zero]
  refine ⟨B, ⟨B, by simp, _, hx, hs⟩, .inl ⟨10, point 0 0 0, hsphere, by rw [hc, hpt], by norm_num, ?_⟩, hmB⟩
  obtain ⟨hd, -⟩ := finish_on_sphere ha b htr hr hsphere
  rw [hfin] at hd
  have hd' : (-2 + w * e) ^ 2 + (w * h) ^ 2 = 100 := by
    simp [dot4, point] at hd
    linarith
  have root : (w - (2 * e + D)) * (w - (2 * e - D)) = 0 := by linear_combination hd' - w ^ 2 * e2 - D2
  have hw : w = 2 * e + D := by
    rcases mul_eq_zero.1 root with h | h
    · linarith
    · linarith
  have hs0 : (turn *ᵥ r.finish) 0 = -2 + w * e := by rw [hfin, hpt]; rfl
  rw [hs0]
  have D9 : 9 ≤ D := by nlinarith
  have e8 : 4 / 5 ≤ e := by nlinarith
  have : 2 < w * e := by rw [hw]; nlinarith
  norm_num
  linarith

/-- All hypotheses of `C121_gauss` and `C121_image` on an axis other than the x axis: the mirror images the point -2 of the z axis to 10 - 60/7 = 10/7, to any accuracy. -/
example {argsort : List EReal → List ℕ} (ha : IsArgsort argsort) {ε : ℝ} (hε : 0 < ε) :
    ∃ (s : Scene) (objs : List ℕ) (sources : List (ℕ → List Col)) (k : ℕ) (f : Tracer), Bench argsort 3 s objs 1 sources 1 ∧
      Tracer.Traces k (Tracer.new sources (objs.map (s.component argsort 1)) 1 5) f ∧
      ∃ r ∈ f.frame, ∃ (q : Vec4) (r' : Row) (τ X : ℝ), r.begin = point 0 0 (-2) ∧ r.tilt 0 ≠ 0 ∧ |X - 10 / 7| < ε ∧ q + τ • r'.dir = point 0 0 X := by
  have hl : ∀ st ∈ ([⟨10, -1 / 10, .mirror⟩] : List Station), ∀ n, st.optic = .into n → 0 < n := by
    intro st hst n hn
    rw [List.mem_singleton] at hst
    subst hst
    cases hn
  obtain ⟨himg, hval, -⟩ := mirror_room ha
  obtain ⟨δ, d0, H⟩ := C121_image hl (σ := 1) (n := 1) (x0 := -2) (by norm_num) one_pos hε himg
  obtain ⟨s, hroom⟩ := upright_room ha
  obtain ⟨objs, sources, k, f, b, ht, e, h, epos, r, hr, q, r', hi, hdir, hbeg, hne, hpos, hlt, hp⟩ := hroom δ d0
  have iso := isometry_of_rigid turn_rigid
  obtain ⟨τ, X, hX, hat⟩ := H argsort 3 s objs 1 sources 1 5 k f ha b ht [.surface ⟨10, -1 / 10, .mirror⟩] turn rfl iso r hr q r' hi
    (by rw [hdir]; simpa [vector] using epos) hbeg (by rw [hdir, show vector e h 0 1 = h from rfl, abs_of_pos hpos]; exact hlt)
    (by rw [hdir, show vector e h 0 2 = 0 from rfl, abs_zero]; exact d0) hp
  have hpt : ∀ a b c : ℝ, turn *ᵥ point a b c = point c a b := fun a b c => by
    funext i
    fin_cases i <;> simp [turn, point, Matrix.mulVec, dotProduct, Fin.sum_univ_four, Matrix.cons_val]
  have inj : ∀ {u v : Vec4}, turn *ᵥ u = turn *ᵥ v → u = v := fun {u v} huv => by rw [← iso.inv_mulVec u, huv, iso.inv_mulVec]
  refine ⟨s, objs, sources, k, f, b, ht, r, hr, q, r', τ, X, inj (by rw [hbeg, hpt]), ?_, ?_, inj (by rw [hpt]; exact hat)⟩
  · have : (turn *ᵥ r.dir) 1 = r.tilt 0 := by
      rw [mulVec4]
      simp [turn, Row.dir, vector]
    rw [← this, hdir]
    exact hne
  · have e1 : lastVertex (-2) [⟨10, -1 / 10, .mirror⟩] - lastSense 1 [⟨10, -1 / 10, .mirror⟩] * lastMedium 1 [⟨10, -1 / 10, .mirror⟩] *
        (gauss 1 1 (-2) [⟨10, -1 / 10, .mirror⟩] 0 1 / gauss 1 1 (-2) [⟨10, -1 / 10, .mirror⟩] 1 1) = 10 / 7 := by
      have : (10 : ℝ) / 7 = 10 - 60 / 7 := by norm_num
      rw [this, ← hval]
      rfl
    rwa [e1] at hX

/-- All hypotheses of `C121_unfold`: a ray that meets three walls of a hall of mirrors. -/
example (argsort : List EReal → List ℕ) (ha : IsArgsort argsort) : ∃ (k : ℕ) (t' : Tracer) (rows : ℕ → Row) (l : List Element), Tracer.Traces k (hallTracer argsort) t' ∧
    rows 0 ∈ t'.frame ∧ l.length = 3 ∧ unfolded l = [] ∧ PassesIn t'.frame hall [0] 1 1 l (rows 0).begin (rows 0) (rows 2).finish (rows 3) ∧
    lastFrame 1 l *ᵥ (rows 3).dir = (rows 0).dir := by
  obtain ⟨k, t', rows, h, hm, hf, hs, p0, p1, p2⟩ := hall_rows argsort ha
  have hw : ∀ g < 3, FoldsAt hall [0] 1 (surfaceNormal hall.heap 0 (rows g).finish) (dot4 (surfaceNormal hall.heap 0 (rows g).finish) (rows g).finish) (rows g) := fun g hg =>
    ⟨0, ⟨0, by simp, 0, by simp [hall_surfaces], by rw [hs g hg.le]; rfl⟩, rfl, rfl, rfl⟩
  set l : List Element := [.fold _ _, .fold _ _, .fold _ _] with hl
  have hp : PassesIn t'.frame hall [0] 1 1 l (rows 0).begin (rows 0) (rows 2).finish (rows 3) :=
    ⟨hw 0 (by norm_num), rows 1, hm 1 (by norm_num), hf 0 (by norm_num), hw 1 (by norm_num), rows 2, hm 2 (by norm_num), hf 1 (by norm_num),
      hw 2 (by norm_num), rows 3, hm 3 le_rfl, hf 2 (by norm_num), rfl, rfl⟩
  exact ⟨k, t', rows, l, h, hm 0 (by norm_num), rfl, rfl, hp, (C121_unfold ha (hall_bench argsort) h rfl (hm 0 (by norm_num)) hp).2.2.1⟩

/-- a mirror at 45 degrees turns the x axis into the y axis -/
example : mirrorImage (vector (√2 / 2) (-(√2 / 2)) 0) 0 *ᵥ vector 1 0 0 = vector 0 1 0 := by
  have h2 : √2 * √2 = (2 : ℝ) := Real.mul_self_sqrt (by norm_num)
  funext i
  rw [mirrorImage_mulVec rfl]
  fin_cases i <;> simp [vector, dot4] <;> nlinarith

end PyRayT
