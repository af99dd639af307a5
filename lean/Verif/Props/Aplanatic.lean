import Verif.Props.Spheres

/-!
# Property C114: the aplanatic points of a ball of glass
-/

namespace PyRayT

open Classical Matrix Spec

variable {argsort : List EReal → List ℕ} {fuel : ℕ} {s : Scene} {objs : List ℕ} {depth : ℕ}

/-! ### specification -/

/-- Two aplanatic points of the ball with centre `c`, radius `|ρ|` and index `N`: on one half line from the centre, the outer one `N` times the radius away from it, the inner one
the radius divided by `N`. -/
def Spec.Aplanatic (c : Vec4) (ρ N : ℝ) (inner outer : Vec4) : Prop :=
  dot4 (outer - c) (outer - c) = (N * ρ) ^ 2 ∧ outer - c = N ^ 2 • (inner - c)

/-- the sine condition for two directions and the axis `a`: the parts across the axis are in the ratio `N`, for every ray -/
def Spec.SineCondition (a outside inside : Vec4) (N : ℝ) : Prop :=
  ∀ i, dot4 a a * inside i - dot4 inside a * a i = N * (dot4 a a * outside i - dot4 outside a * a i)

/-! ### proofs -/

/-- two unit vectors with the same part along a surface, on the same side of it, are equal -/
theorem eq_of_tangent {n v w : Vec4} (hn : dot4 n n = 1) (hv : dot4 v v = 1) (hw : dot4 w w = 1) (ht : ∀ i, v i - dot4 v n * n i = w i - dot4 w n * n i)
    (hs : 0 < dot4 v n * dot4 w n) : v = w := by
  have key : ∀ x : Vec4, dot4 x x = 1 → dot4 (fun i => x i - dot4 x n * n i) (fun i => x i - dot4 x n * n i) = 1 - dot4 x n ^ 2 := by
    intro x hx
    have e : dot4 (fun i => x i - dot4 x n * n i) (fun i => x i - dot4 x n * n i) = dot4 x x - 2 * dot4 x n * dot4 x n + dot4 x n ^ 2 * dot4 n n := by
      simp only [dot4]; ring
    rw [e, hx, hn]; ring
  have h1 := key v hv
  have h2 := key w hw
  rw [funext ht, h2] at h1
  have h3 : (dot4 v n - dot4 w n) * (dot4 v n + dot4 w n) = 0 := by linarith
  have h4 : dot4 v n = dot4 w n := by
    rcases mul_eq_zero.1 h3 with h | h
    · linarith
    · exfalso
      have : dot4 w n = -dot4 v n := by linarith
      rw [this] at hs
      nlinarith [sq_nonneg (dot4 v n)]
  funext i
  have := ht i
  rw [h4] at this
  linarith

theorem dot4_comb (x y : ℝ) (a b v : Vec4) : dot4 (x • (a - y • b)) v = x * (dot4 a v - y * dot4 b v) := by
  simp [dot4]; ring

theorem dot4_comb_self (x y : ℝ) (a b : Vec4) : dot4 (x • (a - y • b)) (x • (a - y • b)) = x ^ 2 * (dot4 a a - 2 * y * dot4 a b + y ^ 2 * dot4 b b) := by
  simp [dot4]; ring

section
variable {sources : List (ℕ → List Col)} {m : ℕ} {limit : ℤ} {k : ℕ} {f : Tracer}

/-- the scale of the normal of a sphere -/
theorem sphere_scale (ha : IsArgsort argsort) (b : Bench argsort fuel s objs depth sources m)
    (ht : Tracer.Traces k (Tracer.new sources (objs.map (s.component argsort depth)) m limit) f) {r : Row} (hr : r ∈ f.frame) {c : Vec4} {ρ : ℝ} {x : ℕ}
    (hsp : EndsOnSphere s objs depth c ρ x r) (hn : dot4 (surfaceNormal s.heap x r.finish) (surfaceNormal s.heap x r.finish) = 1) :
    ∃ μ : ℝ, μ ^ 2 * ρ ^ 2 = 1 ∧ surfaceNormal s.heap x r.finish = μ • (r.finish - c) := by
  obtain ⟨hp, -⟩ := finish_on_sphere ha b ht hr hsp
  refine ⟨_, ?_, sphere_unit_normal ha b ht hr hsp⟩
  rw [← hp, ← hn, sphere_unit_normal ha b ht hr hsp]; simp [dot4]; ring

/-- **C114, light going in.** Let a ray in air come to a ball of glass of index `N` at least 1 from outside, on its way to the outer aplanatic point, which it would reach after the
distance `L`. In the glass it goes exactly to the inner aplanatic point, at the distance `L/N` (the product of index and distance is the same), and its direction obeys the sine
condition. So all light that converges to the outer point is focused without any error in the inner one. -/
theorem C114_focus (ha : IsArgsort argsort) (b : Bench argsort fuel s objs depth sources m)
    (ht : Tracer.Traces k (Tracer.new sources (objs.map (s.component argsort depth)) m limit) f) {r r' : Row} (hr : r ∈ f.frame)
    (hr' : r' ∈ f.frame) (hf : Follows r r') {c : Vec4} {ρ : ℝ} {x : ℕ} (hsp : EndsOnSphere s objs depth c ρ x r) {g : IndexModel} (hg : s.material x = .glass g)
    {N : ℝ} (hN : g.indexAt r.wavelength = N) (h1 : 1 ≤ N) (hair : r.index = 1) (hin : dot4 r.dir (surfaceNormal s.heap x r.finish) < 0)
    (hout : dot4 r.dir (r.finish - c) < 0) {inner outer : Vec4} (hap : Aplanatic c ρ N inner outer) {L : ℝ} (hL : 0 < L) (haim : outer = r.finish + L • r.dir) :
    r'.index = N ∧ inner = r.finish + (L / N) • r'.dir ∧ SineCondition (outer - c) r.dir r'.dir N := by
  obtain ⟨hq, hqi⟩ := hap
  have hNp : 0 < N := by linarith
  obtain ⟨a, haa, id, hx, hid, -⟩ := _root_.id hsp
  obtain ⟨hn1, -, hint⟩ := b.optics ha ht hr hr' hf haa hx hid
  obtain ⟨hp, hρ⟩ := finish_on_sphere ha b ht hr hsp
  obtain ⟨μ, hμ, hnorm⟩ := sphere_scale ha b ht hr hsp hn1
  set n := surfaceNormal s.heap x r.finish with hndef
  set d := r.finish - c with hd
  set q := outer - c with hqdef
  have hu1 := b.unit ha ht hr
  have hu : r.dir = L⁻¹ • (q - (1 : ℝ) • d) := by
    rw [hqdef, haim, hd, one_smul]
    rw [show r.finish + L • r.dir - c - (r.finish - c) = L • r.dir by abel, smul_smul, inv_mul_cancel₀ hL.ne', one_smul]
  have hqd : dot4 q d < ρ ^ 2 := by
    rw [hu, dot4_comb, hp, one_mul] at hout
    have := neg_of_mul_neg_left (by rwa [mul_comm] at hout) (inv_pos.2 hL).le
    linarith
  have hL2 : L ^ 2 = (N * ρ) ^ 2 - 2 * dot4 q d + ρ ^ 2 := by
    rw [hu, dot4_comb_self, hq, hp] at hu1
    field_simp at hu1
    linarith
  have hsm : ∀ v : Vec4, dot4 v n = μ * dot4 v d := fun v => by rw [hnorm]; simp [dot4]; ring
  have hμp : 0 < μ := by
    rw [hsm] at hin
    exact pos_of_mul_neg_left hin hout.le
  -- the direction to the inner point
  set w : Vec4 := (1 / (N * L)) • (q - N ^ 2 • d) with hwdef
  have hN2 : 1 ≤ N ^ 2 := by nlinarith
  have hρ2 : 0 < ρ ^ 2 := by positivity
  have hw1 : dot4 w w = 1 := by
    rw [hwdef, dot4_comb_self, hq, hp]
    have : (N * ρ) ^ 2 - 2 * N ^ 2 * dot4 q d + (N ^ 2) ^ 2 * ρ ^ 2 = N ^ 2 * L ^ 2 := by rw [hL2]; ring
    rw [this]; field_simp
  have hwn : dot4 w n < 0 := by
    rw [hsm, hwdef, dot4_comb, hp]
    refine mul_neg_of_pos_of_neg hμp (mul_neg_of_pos_of_neg (by positivity) ?_)
    nlinarith
  rw [hair, hg] at hint
  simp only [Interacts, hN] at hint
  rw [if_neg (not_lt.2 hin.le)] at hint
  rcases hint with ⟨-, -, hperp, -, -, hside, e2⟩ | ⟨hle, -⟩
  swap
  · have : Spec.sinTo r.dir n < 1 := by
      show √(1 - dot4 r.dir n ^ 2) < 1
      rw [Real.sqrt_lt' one_pos]
      have := sq_pos_of_neg hin
      linarith
    linarith
  have hv : r'.dir = w := by
    refine eq_of_tangent hn1 (b.unit ha ht hr') hw1 (fun i => ?_) (mul_pos_of_neg_of_neg (hside hin.le) hwn)
    have h := hperp i
    have e1 : dot4 r.dir n = μ * (L⁻¹ * (dot4 q d - ρ ^ 2)) := by rw [hsm, hu, dot4_comb, hp, one_mul]
    have e3 : dot4 w n = μ * (1 / (N * L) * (dot4 q d - N ^ 2 * ρ ^ 2)) := by rw [hsm, hwdef, dot4_comb, hp]
    have en : n i = μ * d i := by rw [hnorm]; rfl
    have eu : r.dir i = L⁻¹ * (q i - d i) := by rw [hu]; simp
    have ew : w i = 1 / (N * L) * (q i - N ^ 2 * d i) := by rw [hwdef]; simp
    have h2 : N * (w i - dot4 w n * n i) = 1 * (r.dir i - dot4 r.dir n * n i) := by
      rw [e1, e3, en, eu, ew]
      field_simp
      linear_combination (N ^ 2 - 1) * d i * hμ
    exact mul_left_cancel₀ hNp.ne' (by linarith)
  have hinner : inner = c + (1 / N ^ 2) • q := by
    rw [hqi, smul_smul, one_div, inv_mul_cancel₀ (by positivity), one_smul]; abel
  refine ⟨e2, ?_, fun i => ?_⟩
  · rw [hv, hwdef, hinner]
    funext i
    have : r.finish i = c i + d i := by rw [hd]; simp
    simp only [Pi.add_apply, Pi.smul_apply, Pi.sub_apply, smul_eq_mul, this]
    field_simp
    ring
  · rw [hv]
    have e1 : dot4 r.dir q = L⁻¹ * (dot4 q q - 1 * dot4 d q) := by rw [hu, dot4_comb]
    have e3 : dot4 w q = 1 / (N * L) * (dot4 q q - N ^ 2 * dot4 d q) := by rw [hwdef, dot4_comb]
    have eu : r.dir i = L⁻¹ * (q i - d i) := by rw [hu]; simp
    have ew : w i = 1 / (N * L) * (q i - N ^ 2 * d i) := by rw [hwdef]; simp
    rw [e1, e3, eu, ew]
    field_simp
    ring

/-- **C114, light going out.** Let a ray in the glass come from the inner aplanatic point, at the distance `L` from there, to a place of the ball's surface from which the outer
aplanatic point is seen through the ball. It is never totally reflected; in air it goes exactly as if it had come from the outer point, at the distance `N L`, and its direction obeys
the sine condition. So the ball shows an image of the inner point in the outer one that is free of errors. -/
theorem C114_magnify (ha : IsArgsort argsort) (b : Bench argsort fuel s objs depth sources m)
    (ht : Tracer.Traces k (Tracer.new sources (objs.map (s.component argsort depth)) m limit) f) {r r' : Row} (hr : r ∈ f.frame)
    (hr' : r' ∈ f.frame) (hf : Follows r r') {c : Vec4} {ρ : ℝ} {x : ℕ} (hsp : EndsOnSphere s objs depth c ρ x r) {g : IndexModel} (hg : s.material x = .glass g)
    {N : ℝ} (h1 : 1 ≤ N) (hglass : r.index = N) (hin : 0 < dot4 r.dir (surfaceNormal s.heap x r.finish))
    {inner outer : Vec4} (hap : Aplanatic c ρ N inner outer) (hcap : dot4 (r.finish - outer) (r.finish - c) > 0) {L : ℝ} (hL : 0 < L)
    (hfrom : r.finish = inner + L • r.dir) :
    r'.index = 1 ∧ r.finish = outer + (N * L) • r'.dir ∧ SineCondition (outer - c) r'.dir r.dir N := by
  obtain ⟨hq, hqi⟩ := hap
  have hNp : 0 < N := by linarith
  obtain ⟨a, haa, id, hx, hid, -⟩ := _root_.id hsp
  obtain ⟨hn1, -, hint⟩ := b.optics ha ht hr hr' hf haa hx hid
  obtain ⟨hp, hρ⟩ := finish_on_sphere ha b ht hr hsp
  obtain ⟨μ, hμ, hnorm⟩ := sphere_scale ha b ht hr hsp hn1
  set n := surfaceNormal s.heap x r.finish with hndef
  set d := r.finish - c with hd
  set q := outer - c with hqdef
  have hu1 := b.unit ha ht hr
  have hinner : inner - c = (1 / N ^ 2) • q := by
    rw [hqi, smul_smul, one_div, inv_mul_cancel₀ (by positivity), one_smul]
  have hu : r.dir = L⁻¹ • (d - (1 / N ^ 2) • q) := by
    rw [← hinner, hd, hfrom]
    rw [show inner + L • r.dir - c - (inner - c) = L • r.dir by abel, smul_smul, inv_mul_cancel₀ hL.ne', one_smul]
  have hρ2 : 0 < ρ ^ 2 := by positivity
  have hqd : dot4 q d < ρ ^ 2 := by
    have : r.finish - outer = (1 : ℝ) • (d - (1 : ℝ) • q) := by rw [hd, hqdef, one_smul, one_smul]; abel
    rw [this, dot4_comb, hp] at hcap
    linarith
  have hdq : dot4 d q = dot4 q d := dot4_symm _ _
  have hL2 : N ^ 2 * L ^ 2 = N ^ 2 * ρ ^ 2 - 2 * dot4 q d + ρ ^ 2 := by
    rw [hu, dot4_comb_self, hq, hp, hdq] at hu1
    field_simp at hu1
    linarith
  have hsm : ∀ v : Vec4, dot4 v n = μ * dot4 v d := fun v => by rw [hnorm]; simp [dot4]; ring
  have hN2 : 1 ≤ N ^ 2 := by nlinarith
  have e1 : dot4 r.dir n = μ * (L⁻¹ * (ρ ^ 2 - 1 / N ^ 2 * dot4 q d)) := by rw [hsm, hu, dot4_comb, hp]
  have hpos : 0 < ρ ^ 2 - 1 / N ^ 2 * dot4 q d := by
    rw [sub_pos, one_div, inv_mul_lt_iff₀ (by positivity)]
    nlinarith
  have hμp : 0 < μ := by
    rw [e1] at hin
    exact pos_of_mul_pos_left hin (by positivity)
  -- the direction from the outer point
  set w : Vec4 := (1 / (N * L)) • (d - (1 : ℝ) • q) with hwdef
  have hw1 : dot4 w w = 1 := by
    rw [hwdef, dot4_comb_self, hq, hp, hdq]
    have : ρ ^ 2 - 2 * 1 * dot4 q d + 1 ^ 2 * (N * ρ) ^ 2 = N ^ 2 * L ^ 2 := by rw [hL2]; ring
    rw [this]; field_simp
  have e3 : dot4 w n = μ * (1 / (N * L) * (ρ ^ 2 - dot4 q d)) := by rw [hsm, hwdef, dot4_comb, hp, one_mul]
  have hwn : 0 < dot4 w n := by
    rw [e3]
    have : 0 < ρ ^ 2 - dot4 q d := by linarith
    positivity
  have htan : ∀ i, N * (r.dir i - dot4 r.dir n * n i) = w i - dot4 w n * n i := by
    intro i
    have en : n i = μ * d i := by rw [hnorm]; rfl
    have eu : r.dir i = L⁻¹ * (d i - 1 / N ^ 2 * q i) := by rw [hu]; simp
    have ew : w i = 1 / (N * L) * (d i - q i) := by rw [hwdef]; simp
    rw [e1, e3, en, eu, ew]
    field_simp
    linear_combination (1 - N ^ 2) * d i * hμ
  rw [hglass, hg] at hint
  simp only [Interacts] at hint
  rw [if_pos hin] at hint
  rcases hint with ⟨-, -, hperp, -, hside, -, e2⟩ | ⟨hle, -⟩
  swap
  · exfalso
    have key : ∀ z : Vec4, dot4 z z = 1 → dot4 (fun i => z i - dot4 z n * n i) (fun i => z i - dot4 z n * n i) = 1 - dot4 z n ^ 2 := by
      intro z hz
      have e : dot4 (fun i => z i - dot4 z n * n i) (fun i => z i - dot4 z n * n i) = dot4 z z - 2 * dot4 z n * dot4 z n + dot4 z n ^ 2 * dot4 n n := by
        simp only [dot4]; ring
      rw [e, hz, hn1]; ring
    have k1 := key w hw1
    have k2 := key r.dir hu1
    have k3 : dot4 (fun i => w i - dot4 w n * n i) (fun i => w i - dot4 w n * n i) =
        N ^ 2 * dot4 (fun i => r.dir i - dot4 r.dir n * n i) (fun i => r.dir i - dot4 r.dir n * n i) := by
      rw [funext fun i => (htan i).symm]
      simp only [dot4]; ring
    have hs : N * Spec.sinTo r.dir n < 1 := by
      have h0 : 0 ≤ 1 - dot4 r.dir n ^ 2 := by rw [← k2]; exact dot4_self_nonneg _
      have h2 : (N * Spec.sinTo r.dir n) ^ 2 < 1 ^ 2 := by
        rw [mul_pow]
        show N ^ 2 * √(1 - dot4 r.dir n ^ 2) ^ 2 < 1 ^ 2
        rw [Real.sq_sqrt h0, ← k2, ← k3, k1]
        have := sq_pos_of_pos hwn
        linarith
      exact lt_of_pow_lt_pow_left₀ 2 one_pos.le h2
    linarith
  have hv : r'.dir = w := by
    refine eq_of_tangent hn1 (b.unit ha ht hr') hw1 (fun i => ?_) (mul_pos (hside hin) hwn)
    have h := hperp i
    rw [← htan i, h, one_mul]
  refine ⟨e2, ?_, fun i => ?_⟩
  · rw [hv, hwdef]
    funext i
    have h3 : r.finish i = c i + d i := by rw [hd]; simp
    have h4 : outer i = c i + q i := by rw [hqdef]; simp
    simp only [Pi.add_apply, Pi.smul_apply, Pi.sub_apply, smul_eq_mul, h3, h4]
    field_simp
    ring
  · rw [hv]
    have e1 : dot4 r.dir q = L⁻¹ * (dot4 d q - 1 / N ^ 2 * dot4 q q) := by rw [hu, dot4_comb]
    have e3 : dot4 w q = 1 / (N * L) * (dot4 d q - 1 * dot4 q q) := by rw [hwdef, dot4_comb]
    have eu : r.dir i = L⁻¹ * (d i - 1 / N ^ 2 * q i) := by rw [hu]; simp
    have ew : w i = 1 / (N * L) * (d i - q i) := by rw [hwdef]; simp
    rw [e1, e3, eu, ew]
    field_simp
    ring

end

/-! ### Examples: the ball of index 4/3 of C104 -/

/-- non-vacuity of `C114_focus` and `C114_magnify`: a ray at 0.8 from the axis is aimed at the outer point (0, 0.8, 16/15) and passes the inner point (0, 0.45, 0.6); on its way out
it comes from another inner point, (0, 0.702, -0.264), and seems to come from (0, 1.248, -0.4693...). -/
example (ha : IsArgsort argsort) : ∃ (k : ℕ) (t' : Tracer) (r r' r'' : Row),
    Tracer.Traces k (Tracer.new [fun _ => [plateCol 0.8 (-1) 0 1 1 0]] ([0, 1].map ((shells (.glass (.basic (4 / 3)))).component argsort 1)) 1 3) t' ∧
    r ∈ t'.frame ∧ r' ∈ t'.frame ∧ r'' ∈ t'.frame ∧ r.dir = vector 0 0 1 ∧ r.finish = point 0 0.8 (-0.6) ∧
    point 0 0.45 0.6 = r.finish + ((5 / 3) / (4 / 3) : ℝ) • r'.dir ∧ r'.finish = point 0 1.248 (-(1.408 / 3)) + (4 / 3 * 1.25 : ℝ) • r''.dir := by
  obtain ⟨k, t', r, r', r'', h, hr, hr', hr'', f1, f2, s1, s2, s3, i1, d1, d2, d3, p1, p2⟩ := shells_rows ha
  have b : Bench argsort 1 (shells (.glass (.basic (4 / 3)))) [0, 1] 1 [fun _ => [plateCol 0.8 (-1) 0 1 1 0]] 1 :=
    shells_bench argsort (fun g hg => by cases hg; simp [IndexModel.indexAt]) (by norm_num)
  have hnor : surfaceNormal (shells (.glass (.basic (4 / 3)))).heap 1 r.finish = vector 0 0.8 (-0.6) := by
    rw [p1, shells_normal _ (by norm_num)]
  have hnor' : surfaceNormal (shells (.glass (.basic (4 / 3)))).heap 1 r'.finish = vector 0 0.352 0.936 := by
    rw [p2, shells_normal _ (by norm_num)]
  obtain ⟨e1, e2, -⟩ := C114_focus ha b h hr hr' f1 (shells_ends _ s1) (g := .basic (4 / 3)) (N := 4 / 3)
    (by simp [shells, pair]) rfl (by norm_num) i1 (by rw [hnor, d1]; simp [dot4, vector]; norm_num)
    (by rw [p1, d1]; simp [dot4, vector, point]; norm_num) (inner := point 0 0.45 0.6) (outer := point 0 0.8 (16 / 15))
    ⟨by simp [dot4, point]; norm_num, by funext i; fin_cases i <;> simp [point] <;> norm_num⟩ (L := 5 / 3) (by norm_num)
    (by rw [p1, d1]; funext i; fin_cases i <;> simp [point, vector] <;> norm_num)
  obtain ⟨-, e4, -⟩ := C114_magnify ha b h hr' hr'' f2 (shells_ends _ s2) (g := .basic (4 / 3)) (N := 4 / 3)
    (by simp [shells, pair]) (by norm_num) e1 (by rw [hnor', d2]; simp [dot4, vector]; norm_num)
    (inner := point 0 0.702 (-0.264)) (outer := point 0 1.248 (-(1.408 / 3)))
    ⟨by simp [dot4, point]; norm_num, by funext i; fin_cases i <;> simp [point] <;> norm_num⟩
    (by rw [p2]; simp [dot4, point]; norm_num) (L := 1.25) (by norm_num)
    (by rw [p2, d2]; funext i; fin_cases i <;> simp [point, vector] <;> norm_num)
  exact ⟨k, t', r, r', r'', h, hr, hr', hr'', d1, p1, e2, e4⟩

end PyRayT
