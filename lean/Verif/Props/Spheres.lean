import Mathlib.Analysis.SpecialFunctions.Trigonometric.Inverse
import Verif.Props.MirrorBox
import Verif.Props.Primitives
import Verif.Props.Focus
import Verif.Props.Bare

/-!
# Property C104: concentric spheres, spherical mirrors from inside, and ball lenses
-/

namespace PyRayT

open Classical Matrix Spec

variable {argsort : List EReal → List ℕ} {fuel : ℕ} {s : Scene} {objs : List ℕ} {depth : ℕ}

/-- the moment of the line through `p` with direction `u` about the point `c`: the vector product (p - c) × u -/
def Spec.moment (c p u : Vec4) : Fin 3 → ℝ :=
  ![(p 1 - c 1) * u 2 - (p 2 - c 2) * u 1, (p 2 - c 2) * u 0 - (p 0 - c 0) * u 2, (p 0 - c 0) * u 1 - (p 1 - c 1) * u 0]

/-- the surface named by a row is a sphere of radius `ρ` that has been moved and turned but not scaled, with centre `c` -/
def Spec.EndsOnSphere (s : Scene) (objs : List ℕ) (depth : ℕ) (c : Vec4) (ρ : ℝ) (x : ℕ) (r : Row) : Prop :=
  ∃ a ∈ objs, ∃ id : ℕ, (id, x) ∈ surfaceIds depth s.heap a ∧ r.surface = (id : ℤ) ∧ (s.heap.obj x).kind = .prim (.sphere ρ) ∧
    Isometry (s.heap.obj x).world ∧ (s.heap.obj x).world *ᵥ point 0 0 0 = c

theorem centre_three {c : Vec4} {w : Mat4} (hw : Isometry w) (h : w *ᵥ point 0 0 0 = c) : c 3 = 1 := by
  rw [← h, hw.three]; rfl

/-- the normal of a sphere is along the radius -/
theorem sphere_normal {o : Obj} (hw : Isometry o.world) (ho : o.objT = o.world⁻¹) {ρ : ℝ} {p c : Vec4} (hp : p 3 = 1)
    (hc : o.world *ᵥ point 0 0 0 = c) :
    worldNormal o (.sphere ρ) p = (o.nscale * (norm4 (normalize (p - c)))⁻¹ * (norm4 (p - c))⁻¹) • (p - c) := by
  have hd : (p - c) 3 = 0 := by simp [hp, centre_three hw hc]
  have hd' : (o.world⁻¹ *ᵥ (p - c)) 3 = 0 := by rw [← hw.three (o.world⁻¹ *ᵥ (p - c)), hw.mulVec_inv, hd]
  have e : o.objT *ᵥ p = point 0 0 0 + o.world⁻¹ *ᵥ (p - c) := by
    rw [ho, mulVec_sub, ← hc, hw.inv_mulVec]; abel
  set l := o.world⁻¹ *ᵥ (p - c) with hl
  have hnl : norm4 l = norm4 (p - c) := by
    have h1 : dot4 (o.world *ᵥ l) (o.world *ᵥ l) = dot4 l l := hw.dot hd' hd'
    rw [hl, hw.mulVec_inv] at h1
    rw [← hl] at h1
    unfold norm4
    congr 1
    simp only [dot4] at h1
    linarith
  have e2 : (![(o.objT *ᵥ p) 0, (o.objT *ᵥ p) 1, (o.objT *ᵥ p) 2, 0] : Vec4) = l := by
    rw [e]; funext i; fin_cases i <;> simp [point, hd']
  have e3 : zeroW (normalize l) = normalize l := by
    funext i; fin_cases i <;> simp [zeroW, normalize, hd']
  have e4 : zeroW (o.objTᵀ *ᵥ normalize l) = normalize (p - c) := by
    rw [ho, hw.zeroW, e3, normalize_smul_eq, mulVec_smul, hl, hw.mulVec_inv, ← hl, hnl, normalize_smul_eq]
  simp only [worldNormal, Prim.normal]
  rw [e2, e4, normalize_smul_eq (normalize (p - c)), normalize_smul_eq (p - c), smul_smul, smul_smul]

section
variable {sources : List (ℕ → List Col)} {m : ℕ} {limit : ℤ} {k : ℕ} {f : Tracer}

theorem surfaceNormal_sphere (b : Bench argsort fuel s objs depth sources m) {c : Vec4} {ρ : ℝ} {x : ℕ} {r r0 : Row}
    (h : EndsOnSphere s objs depth c ρ x r0) :
    surfaceNormal s.heap x r.finish = ((s.heap.obj x).nscale * (norm4 (normalize (r.finish - c)))⁻¹ * (norm4 (r.finish - c))⁻¹) • (r.finish - c) := by
  obtain ⟨a, haa, id, hx, -, hk, hw, hc⟩ := h
  have hinv := reaches_inv argsort empty_inv b.history.reaches
  obtain ⟨hxs, -, -⟩ := surfaceIds_spec hinv depth a (b.exist a haa) _ hx
  rw [← sphere_normal hw (hinv.synced x hxs).2.1 (ρ := ρ) rfl hc]
  simp only [surfaceNormal, hk]

/-- a row that names a sphere ends on it -/
theorem finish_on_sphere (ha : IsArgsort argsort) (b : Bench argsort fuel s objs depth sources m)
    (ht : Tracer.Traces k (Tracer.new sources (objs.map (s.component argsort depth)) m limit) f) {c : Vec4} {ρ : ℝ} {x : ℕ} {r : Row}
    (hr : r ∈ f.frame) (h : EndsOnSphere s objs depth c ρ x r) : dot4 (r.finish - c) (r.finish - c) = ρ ^ 2 ∧ ρ ≠ 0 := by
  obtain ⟨a, haa, id, hx, hs, hk, hw, hc⟩ := h
  refine ⟨?_, b.sized a haa x id _ hx hk⟩
  have hinv := reaches_inv argsort empty_inv b.history.reaches
  obtain ⟨hxs, -, -⟩ := surfaceIds_spec hinv depth a (b.exist a haa) _ hx
  have ho := (hinv.synced x hxs).2.1
  obtain ⟨d, hd0, hn, hat⟩ := row_arrives (b.ok ha limit) ht hr
  obtain ⟨a', haa', x', id', hx', hid', hmem⟩ := C25_surface argsort ha s objs depth _ d _ hn
  have e := b.same haa haa' hx hx' (by exact_mod_cast hs.symm.trans hid')
  subst e
  simp only [intersectObj, hk, leafIntersect, Prim.intersect] at hmem
  have hdir3 : (rowRay r).d 3 = 0 := by simp [rowRay, vector]
  have hunit := b.unit ha ht hr
  have hl3 : ((s.heap.obj x).world⁻¹ *ᵥ (rowRay r).d) 3 = 0 := by
    rw [← hw.three ((s.heap.obj x).world⁻¹ *ᵥ (rowRay r).d), hw.mulVec_inv, hdir3]
  have hne : ((rowRay r).map (s.heap.obj x).objT).d 0 ≠ 0 ∨ ((rowRay r).map (s.heap.obj x).objT).d 1 ≠ 0 ∨
      ((rowRay r).map (s.heap.obj x).objT).d 2 ≠ 0 := by
    by_contra hz
    push Not at hz
    obtain ⟨z0, z1, z2⟩ := hz
    simp only [Ray.map, ho] at z0 z1 z2
    have : (s.heap.obj x).world⁻¹ *ᵥ (rowRay r).d = 0 := by
      funext i; fin_cases i
      exacts [z0, z1, z2, hl3]
    have h2 := hw.mulVec_inv (rowRay r).d
    rw [this, mulVec_zero] at h2
    have h3 : r.dir = 0 := by rw [h2]; rfl
    rw [h3] at hunit
    simp [dot4] at hunit
  obtain ⟨-, -, h3, -⟩ := C07_sphere ρ ((rowRay r).map (s.heap.obj x).objT) hne
  have hmem' : (sphereIntersect ρ ((rowRay r).map (s.heap.obj x).objT)).1 = (d : EReal) ∨
      (sphereIntersect ρ ((rowRay r).map (s.heap.obj x).objT)).2 = (d : EReal) := by
    simp only [sort2, List.mem_cons, List.not_mem_nil, or_false] at hmem
    rcases hmem with h | h
    · rcases min_choice (sphereIntersect ρ ((rowRay r).map (s.heap.obj x).objT)).1 (sphereIntersect ρ ((rowRay r).map (s.heap.obj x).objT)).2 with e | e
      · exact .inl (e ▸ h.symm)
      · exact .inr (e ▸ h.symm)
    · rcases max_choice (sphereIntersect ρ ((rowRay r).map (s.heap.obj x).objT)).1 (sphereIntersect ρ ((rowRay r).map (s.heap.obj x).objT)).2 with e | e
      · exact .inl (e ▸ h.symm)
      · exact .inr (e ▸ h.symm)
  have hsq := (h3 d).1 hmem'
  have hfin : ((rowRay r).map (s.heap.obj x).objT).at d = (s.heap.obj x).world⁻¹ *ᵥ r.finish := by
    rw [← hat, ← ho]
    funext i
    simp only [Ray.at, Ray.map, mulVec4]
    ring
  dsimp only at hsq
  rw [hfin] at hsq
  have el : (s.heap.obj x).world⁻¹ *ᵥ r.finish = point 0 0 0 + (s.heap.obj x).world⁻¹ *ᵥ (r.finish - c) := by
    rw [mulVec_sub, ← hc, hw.inv_mulVec]; abel
  have hd3 : (r.finish - c) 3 = 0 := by simp [Row.finish, point, centre_three hw hc]
  set l := (s.heap.obj x).world⁻¹ *ᵥ (r.finish - c) with hl
  have hl3' : l 3 = 0 := by rw [← hw.three l, hl, hw.mulVec_inv, hd3]
  have hdot : dot4 (r.finish - c) (r.finish - c) = dot4 l l := by
    rw [← hw.dot hl3' hl3', hl, hw.mulVec_inv]
  rw [hdot, ← hsq, el]
  simp [dot4, point, hl3']
  ring

/-- **C104, concentric spheres.** Let the surfaces at the ends of the rows `0, ..., n - 1` of a ray be spheres with a common centre, of any radii
and materials. Index times the moment of the ray about the centre is the same for all rows, and all points of the ray are in one plane through
the centre. -/
theorem C104_concentric (ha : IsArgsort argsort) (b : Bench argsort fuel s objs depth sources m)
    (ht : Tracer.Traces k (Tracer.new sources (objs.map (s.component argsort depth)) m limit) f) {n : ℕ} {rows : ℕ → Row}
    (hrows : ∀ g ≤ n, rows g ∈ f.frame) (hfol : ∀ g < n, Follows (rows g) (rows (g + 1))) {c : Vec4}
    (hsph : ∀ g < n, ∃ ρ x, EndsOnSphere s objs depth c ρ x (rows g)) :
    (∀ g ≤ n, ∀ i, (rows g).index * moment c (rows g).finish (rows g).dir i = (rows 0).index * moment c (rows 0).begin (rows 0).dir i) ∧
    ∀ g ≤ n, moment c (rows 0).begin (rows 0).dir 0 * ((rows g).finish 0 - c 0) + moment c (rows 0).begin (rows 0).dir 1 * ((rows g).finish 1 - c 1) +
      moment c (rows 0).begin (rows 0).dir 2 * ((rows g).finish 2 - c 2) = 0 := by
  -- the moment is the same all along a row
  have hslide : ∀ g ≤ n, ∀ i, moment c (rayPoints rows (g + 1)) (rows g).dir i = moment c (rayPoints rows g) (rows g).dir i := by
    intro g hg i
    obtain ⟨L, -, e, -⟩ := row_piece ha b ht hrows hfol hg
    rw [e]
    fin_cases i <;> simp [moment] <;> ring
  have hmain : ∀ g ≤ n, ∀ i, (rows g).index * moment c (rows g).finish (rows g).dir i = (rows 0).index * moment c (rows 0).begin (rows 0).dir i := by
    intro g
    induction g with
    | zero => intro _ i; exact congrArg _ (hslide 0 (by omega) i)
    | succ g ih =>
      intro hg i
      obtain ⟨ρ, x, hs⟩ := hsph g (by omega)
      have hnorm := surfaceNormal_sphere (r := rows g) b hs
      obtain ⟨a, haa, id, hx, hid, -⟩ := hs
      obtain ⟨-, -, hint⟩ := b.optics ha ht (hrows g (by omega)) (hrows (g + 1) hg) (hfol g (by omega)) haa hx hid
      obtain ⟨κ, hκ⟩ := interacts_normal hint
      rw [hnorm] at hκ
      generalize ((s.heap.obj x).nscale * (norm4 (normalize ((rows g).finish - c)))⁻¹ * (norm4 ((rows g).finish - c))⁻¹) = μ at hκ
      simp only [Pi.smul_apply, Pi.sub_apply, smul_eq_mul] at hκ
      rw [← ih (by omega) i]
      have h1 : moment c (rows (g + 1)).finish (rows (g + 1)).dir i = moment c (rows g).finish (rows (g + 1)).dir i := hslide (g + 1) hg i
      rw [h1]
      have k0 := hκ 0
      have k1 := hκ 1
      have k2 := hκ 2
      fin_cases i <;> simp [moment]
      · linear_combination ((rows g).finish 2 - c 2) * k1 - ((rows g).finish 1 - c 1) * k2
      · linear_combination ((rows g).finish 0 - c 0) * k2 - ((rows g).finish 2 - c 2) * k0
      · linear_combination ((rows g).finish 1 - c 1) * k0 - ((rows g).finish 0 - c 0) * k1
  refine ⟨hmain, fun g hg => ?_⟩
  rcases Nat.eq_zero_or_pos n with rfl | hpos
  · obtain rfl : g = 0 := by omega
    have h : ∀ i, moment c (rows 0).begin (rows 0).dir i = moment c (rows 0).finish (rows 0).dir i := fun i => (hslide 0 le_rfl i).symm
    rw [h, h, h]
    simp [moment]; ring
  · obtain ⟨ρ, x, a, haa, id, hx, hid, -⟩ := hsph 0 hpos
    obtain ⟨-, hidx, -⟩ := b.optics ha ht (hrows 0 (by omega)) (hrows 1 hpos) (hfol 0 hpos) haa hx hid
    have h0 := hmain g hg 0
    have h1 := hmain g hg 1
    have h2 := hmain g hg 2
    refine (mul_eq_zero.1 ?_).resolve_left hidx.ne'
    calc (rows 0).index * (moment c (rows 0).begin (rows 0).dir 0 * ((rows g).finish 0 - c 0) + moment c (rows 0).begin (rows 0).dir 1 * ((rows g).finish 1 - c 1) +
        moment c (rows 0).begin (rows 0).dir 2 * ((rows g).finish 2 - c 2))
        = ((rows g).index * moment c (rows g).finish (rows g).dir 0) * ((rows g).finish 0 - c 0) +
          ((rows g).index * moment c (rows g).finish (rows g).dir 1) * ((rows g).finish 1 - c 1) +
          ((rows g).index * moment c (rows g).finish (rows g).dir 2) * ((rows g).finish 2 - c 2) := by rw [h0, h1, h2]; ring
      _ = 0 := by simp [moment]; ring

theorem dot4_smul_add (p q : Vec4) (L : ℝ) : dot4 (p + L • q) (p + L • q) = dot4 p p + 2 * L * dot4 q p + L ^ 2 * dot4 q q := by
  simp [dot4]; ring

/-- a chord of a sphere makes equal angles with the radii at its ends -/
theorem chord {p q c u : Vec4} {L R2 : ℝ} (hL : 0 < L) (he : q = p + L • u) (hu : dot4 u u = 1) (hp : dot4 (p - c) (p - c) = R2)
    (hq : dot4 (q - c) (q - c) = R2) : dot4 u (p - c) = -(L / 2) ∧ dot4 u (q - c) = L / 2 := by
  have e : q - c = (p - c) + L • u := by rw [he]; abel
  rw [e, dot4_smul_add, hp, hu] at hq
  have h1 : dot4 u (p - c) = -(L / 2) := by
    have : L * (2 * dot4 u (p - c) + L) = 0 := by linarith
    rcases mul_eq_zero.1 this with h | h
    · exact absurd h hL.ne'
    · linarith
  refine ⟨h1, ?_⟩
  have : dot4 u (q - c) = dot4 u (p - c) + L * dot4 u u := by rw [e]; simp [dot4]; ring
  rw [this, h1, hu]; ring

/-- the unit normal of a sphere where a row ends, with the same sign everywhere -/
theorem sphere_unit_normal (ha : IsArgsort argsort) (b : Bench argsort fuel s objs depth sources m)
    (ht : Tracer.Traces k (Tracer.new sources (objs.map (s.component argsort depth)) m limit) f) {c : Vec4} {ρ : ℝ} {x : ℕ} {r : Row}
    (hr : r ∈ f.frame) (h : EndsOnSphere s objs depth c ρ x r) :
    surfaceNormal s.heap x r.finish = ((s.heap.obj x).nscale / |ρ|) • (r.finish - c) := by
  obtain ⟨hd, hρ⟩ := finish_on_sphere ha b ht hr h
  have hn : norm4 (r.finish - c) = |ρ| := by
    rw [← Real.sqrt_sq_eq_abs, ← hd]
    unfold norm4
    congr 1
    simp [dot4]; ring
  have hn' : norm4 (normalize (r.finish - c)) = 1 := by
    rw [norm4_eq_one, normalize_smul_eq, hn]
    have : ∀ (y : ℝ) (q : Vec4), dot4 (y • q) (y • q) = y ^ 2 * dot4 q q := fun y q => by simp [dot4]; ring
    rw [this, hd, inv_pow, sq_abs, inv_mul_cancel₀ (pow_ne_zero 2 hρ)]
  rw [surfaceNormal_sphere b h, hn, hn']
  congr 1
  rw [inv_one, mul_one, div_eq_mul_inv]

/-- **C104, inside a sphere.** Let a ray meet one sphere `n + 1` times in succession and be reflected there each time but the last, by a mirror or
because the angle is beyond the critical angle of the glass. All chords have the same length 2h, where h is the distance that the first row has
travelled past the point closest to the centre; each chord makes the same angle with the radii at its ends, and is turned by the same angle from
the chord before it; the moment about the centre never changes, so that all chords touch one sphere and are in one plane. -/
theorem C104_billiard (ha : IsArgsort argsort) (b : Bench argsort fuel s objs depth sources m)
    (ht : Tracer.Traces k (Tracer.new sources (objs.map (s.component argsort depth)) m limit) f) {n : ℕ} {rows : ℕ → Row}
    (hrows : ∀ g ≤ n, rows g ∈ f.frame) (hfol : ∀ g < n, Follows (rows g) (rows (g + 1))) {c : Vec4} {ρ : ℝ} {x : ℕ}
    (hsph : ∀ g ≤ n, EndsOnSphere s objs depth c ρ x (rows g))
    (href : ∀ g < n, Reflects (s.material x) (rows g) (surfaceNormal s.heap x (rows g).finish)) :
    let h := dot4 (rows 0).dir ((rows 0).finish - c)
    ∀ g < n, 0 < h ∧
      √(((rows (g + 1)).finish 0 - (rows g).finish 0) ^ 2 + ((rows (g + 1)).finish 1 - (rows g).finish 1) ^ 2 +
        ((rows (g + 1)).finish 2 - (rows g).finish 2) ^ 2) = 2 * h ∧
      dot4 (rows (g + 1)).dir ((rows g).finish - c) = -h ∧ dot4 (rows (g + 1)).dir ((rows (g + 1)).finish - c) = h ∧
      dot4 (rows (g + 1)).dir (rows g).dir = 1 - 2 * (h / ρ) ^ 2 ∧
      ∀ i, moment c (rows (g + 1)).finish (rows (g + 1)).dir i = moment c (rows 0).begin (rows 0).dir i := by
  intro h
  -- one reflection
  have hstep : ∀ g < n, ∃ L : ℝ, 0 < L ∧
      √(((rows (g + 1)).finish 0 - (rows g).finish 0) ^ 2 + ((rows (g + 1)).finish 1 - (rows g).finish 1) ^ 2 +
        ((rows (g + 1)).finish 2 - (rows g).finish 2) ^ 2) = L ∧
      (rows (g + 1)).finish = (rows g).finish + L • (rows (g + 1)).dir ∧
      dot4 (rows g).dir ((rows g).finish - c) = L / 2 ∧
      dot4 (rows (g + 1)).dir ((rows g).finish - c) = -(L / 2) ∧ dot4 (rows (g + 1)).dir ((rows (g + 1)).finish - c) = L / 2 ∧
      ∃ κ : ℝ, (∀ i, (rows (g + 1)).dir i = (rows g).dir i - 2 * dot4 (rows g).dir ((rows g).finish - c) * κ * ((rows g).finish - c) i) ∧ κ * ρ ^ 2 = 1 := by
    intro g hg
    obtain ⟨L, hL, e, hlen⟩ := row_piece ha b ht hrows hfol (g := g + 1) (by omega)
    simp only [rayPoints] at e hlen
    obtain ⟨hp, -⟩ := finish_on_sphere ha b ht (hrows g hg.le) (hsph g hg.le)
    obtain ⟨hq, -⟩ := finish_on_sphere ha b ht (hrows (g + 1) hg) (hsph (g + 1) hg)
    obtain ⟨c1, c2⟩ := chord hL e (b.unit ha ht (hrows (g + 1) hg)) hp hq
    have hnorm := sphere_unit_normal ha b ht (hrows g hg.le) (hsph g hg.le)
    obtain ⟨a, haa, id, hx, hid, -⟩ := hsph g hg.le
    obtain ⟨hn1, -, hint⟩ := b.optics ha ht (hrows g hg.le) (hrows (g + 1) hg) (hfol g hg) haa hx hid
    have hdir := reflects_dir (href g hg) hint
    rw [hnorm] at hn1 hdir
    generalize (s.heap.obj x).nscale / |ρ| = μ at hn1 hdir
    have hμ : μ ^ 2 * ρ ^ 2 = 1 := by
      rw [← hn1, ← hp]; simp [dot4]; ring
    have hdir' : ∀ i, (rows (g + 1)).dir i = (rows g).dir i - 2 * dot4 (rows g).dir ((rows g).finish - c) * μ ^ 2 * ((rows g).finish - c) i := by
      intro i
      rw [hdir i]
      have : dot4 (rows g).dir (μ • ((rows g).finish - c)) = μ * dot4 (rows g).dir ((rows g).finish - c) := by simp [dot4]; ring
      rw [this, Pi.smul_apply, smul_eq_mul]
      ring
    refine ⟨L, hL, hlen, e, ?_, c1, c2, μ ^ 2, hdir', hμ⟩
    have h1 : dot4 (rows (g + 1)).dir ((rows g).finish - c) = dot4 (rows g).dir ((rows g).finish - c) -
        2 * dot4 (rows g).dir ((rows g).finish - c) * μ ^ 2 * dot4 ((rows g).finish - c) ((rows g).finish - c) := by
      simp only [dot4] at hdir' ⊢
      rw [hdir' 0, hdir' 1, hdir' 2, hdir' 3]
      ring
    rw [c1, hp] at h1
    generalize dot4 (rows g).dir ((rows g).finish - c) = A at h1 ⊢
    linear_combination h1 - 2 * A * hμ
  have hconst : ∀ g ≤ n, dot4 (rows g).dir ((rows g).finish - c) = h := by
    intro g
    induction g with
    | zero => intro _; rfl
    | succ g ih =>
      intro hg
      obtain ⟨L, -, -, -, h1, -, h2, -⟩ := hstep g (by omega)
      rw [h2, ← h1, ih (by omega)]
  have hm : ∀ g < n, ∀ i, moment c (rows (g + 1)).finish (rows (g + 1)).dir i = moment c (rows g).finish (rows g).dir i := by
    intro g hg i
    obtain ⟨L, -, -, e, -, -, -, κ, hd, -⟩ := hstep g hg
    have d0 := hd 0
    have d1 := hd 1
    have d2 := hd 2
    simp only [Pi.sub_apply] at d0 d1 d2
    generalize 2 * dot4 (rows g).dir ((rows g).finish - c) * κ = w at d0 d1 d2
    have e' : ∀ j, (rows (g + 1)).finish j = (rows g).finish j + L * (rows (g + 1)).dir j := fun j => by rw [e]; simp
    fin_cases i <;> simp [moment, e', d0, d1, d2] <;> ring
  have hm0 : ∀ i, moment c (rows 0).finish (rows 0).dir i = moment c (rows 0).begin (rows 0).dir i := by
    intro i
    obtain ⟨L, -, e, -⟩ := row_piece ha b ht hrows hfol (g := 0) (Nat.zero_le _)
    have e' : ∀ j, (rows 0).finish j = (rows 0).begin j + L * (rows 0).dir j := fun j => by
      have := congrFun e j
      simpa [rayPoints] using this
    fin_cases i <;> simp [moment, e'] <;> ring
  have hmall : ∀ g ≤ n, ∀ i, moment c (rows g).finish (rows g).dir i = moment c (rows 0).begin (rows 0).dir i := by
    intro g
    induction g with
    | zero => intro _ i; exact hm0 i
    | succ g ih => intro hg i; rw [hm g (by omega) i, ih (by omega) i]
  intro g hg
  obtain ⟨L, hL, hlen, e, h1, h2, h3, κ, hd, hκ⟩ := hstep g hg
  have hh : L / 2 = h := by rw [← h1]; exact hconst g hg.le
  have hρ := (finish_on_sphere ha b ht (hrows g hg.le) (hsph g hg.le)).2
  refine ⟨by linarith, by rw [hlen]; linarith, by rw [h2, hh], by rw [h3, hh], ?_, hmall (g + 1) hg⟩
  have hu := b.unit ha ht (hrows g hg.le)
  have h4 : dot4 (rows (g + 1)).dir (rows g).dir = dot4 (rows g).dir (rows g).dir - 2 * κ * dot4 (rows g).dir ((rows g).finish - c) ^ 2 := by
    have : ∀ (v u p : Vec4) (w : ℝ), (∀ i, v i = u i - w * p i) → dot4 v u = dot4 u u - w * dot4 u p := by
      intro v u p w hv
      simp only [dot4, hv]; ring
    rw [this _ _ _ _ hd]
    ring
  rw [h4, hu, hconst g hg.le, div_pow]
  have hρ2 : ρ ^ 2 ≠ 0 := pow_ne_zero 2 hρ
  have : κ = 1 / ρ ^ 2 := by field_simp; linarith
  rw [this]; ring

theorem dot4_lin (v a b : Vec4) (x y : ℝ) {w : Vec4} (hw : ∀ i, w i = x * a i + y * b i) : dot4 v w = x * dot4 v a + y * dot4 v b := by
  simp only [dot4, hw]; ring

theorem dot4_symm (a b : Vec4) : dot4 a b = dot4 b a := by simp only [dot4]; ring

/-- In a ball of index `N`: what is refracted in at unit normal `n` meets the surface again where the normal is `n + 2 c v`, `c` the cosine of the angle
of refraction, and is refracted out there at the angle at which it came. -/
theorem ball_refraction {g : IndexModel} {wl n2 n3 N : ℝ} {u v w n n' : Vec4} (hN : g.indexAt wl = N) (h1 : 1 ≤ N) (hu : dot4 u u = 1) (hv : dot4 v v = 1)
    (hw : dot4 w w = 1) (hn : dot4 n n = 1) (hin : dot4 u n < 0) (hi : Interacts (.glass g) wl n u 1 v n2)
    (hn' : ∀ i, n' i = n i + 2 * (-dot4 v n) * v i) (hi' : Interacts (.glass g) wl n' v n2 w n3) :
    n2 = N ∧ n3 = 1 ∧ dot4 v n < 0 ∧ Spec.sinTo v n = Spec.sinTo u n / N ∧ Spec.sinTo w n' = Spec.sinTo u n ∧
      0 < dot4 w n' ∧ dot4 w u = Real.cos (2 * (Real.arcsin (Spec.sinTo u n) - Real.arcsin (Spec.sinTo u n / N))) := by
  have hNp : 0 < N := by linarith
  set a := -dot4 u n with ha
  set c := -dot4 v n with hc
  have ha0 : 0 < a := by linarith
  have hsin : ∀ x : Vec4, Spec.sinTo x n = √(1 - dot4 x n ^ 2) := fun x => rfl
  have ha1 : a ^ 2 ≤ 1 := by
    have : 0 ≤ dot4 (fun i => u i - dot4 u n * n i) (fun i => u i - dot4 u n * n i) := dot4_self_nonneg _
    have e : dot4 (fun i => u i - dot4 u n * n i) (fun i => u i - dot4 u n * n i) = dot4 u u - 2 * dot4 u n * dot4 u n + dot4 u n ^ 2 * dot4 n n := by
      simp only [dot4]; ring
    rw [e, hu, hn] at this
    nlinarith
  have hsu : Spec.sinTo u n = √(1 - a ^ 2) := by rw [hsin, ha, neg_sq]
  have hs0 : 0 ≤ Spec.sinTo u n := by rw [hsu]; exact Real.sqrt_nonneg _
  have hs2 : Spec.sinTo u n ^ 2 = 1 - a ^ 2 := by rw [hsu, Real.sq_sqrt (by linarith)]
  have hslt : Spec.sinTo u n < 1 := by nlinarith [sq_nonneg (Spec.sinTo u n - 1)]
  -- entering
  simp only [Interacts, hN] at hi hi'
  rw [if_neg (not_lt.2 hin.le)] at hi
  rcases hi with ⟨-, -, hperp, hsn, -, hside, e2⟩ | ⟨hle, -⟩
  swap
  · linarith
  have hvn := hside hin.le
  have hc0 : 0 < c := by linarith
  have hsv : Spec.sinTo v n = Spec.sinTo u n / N := by
    rw [eq_div_iff hNp.ne']; linarith
  have hc1 : c ^ 2 ≤ 1 := by
    have : 0 ≤ dot4 (fun i => v i - dot4 v n * n i) (fun i => v i - dot4 v n * n i) := dot4_self_nonneg _
    have e : dot4 (fun i => v i - dot4 v n * n i) (fun i => v i - dot4 v n * n i) = dot4 v v - 2 * dot4 v n * dot4 v n + dot4 v n ^ 2 * dot4 n n := by
      simp only [dot4]; ring
    rw [e, hv, hn] at this
    nlinarith
  have hsv2 : Spec.sinTo v n ^ 2 = 1 - c ^ 2 := by rw [hsin, Real.sq_sqrt (by rw [hc] at hc1; nlinarith), hc]; ring
  have hrel : N ^ 2 * (1 - c ^ 2) = 1 - a ^ 2 := by
    rw [← hsv2, ← hs2, hsv]; field_simp
  -- leaving
  have hvn' : dot4 v n' = c := by
    rw [dot4_lin v n v 1 (2 * c) (fun i => by rw [hn' i]; ring), hv]; linarith
  have hnn' : dot4 n n' = 1 - 2 * c ^ 2 := by
    rw [dot4_lin n n v 1 (2 * c) (fun i => by rw [hn' i]; ring), hn, dot4_symm n v]
    rw [show dot4 v n = -c by rw [hc]; ring]; ring
  have hn1' : dot4 n' n' = 1 := by
    rw [dot4_lin n' n v 1 (2 * c) (fun i => by rw [hn' i]; ring), dot4_symm n' n, dot4_symm n' v, hvn', hnn']; ring
  have hsv' : Spec.sinTo v n' = Spec.sinTo u n / N := by
    rw [← hsv]
    show √(1 - dot4 v n' ^ 2) = √(1 - dot4 v n ^ 2)
    rw [hvn', hc, neg_sq]
  rw [if_pos (by rw [hvn']; exact hc0), e2, hsv'] at hi'
  have hNs : N * (Spec.sinTo u n / N) = Spec.sinTo u n := by field_simp
  rw [hNs] at hi'
  rcases hi' with ⟨-, -, hperp', hsn', hside', -, e3⟩ | ⟨hle, -⟩
  swap
  · linarith
  have hb := hside' (by rw [hvn']; exact hc0)
  set b := dot4 w n' with hbdef
  have hsw : Spec.sinTo w n' = Spec.sinTo u n := by linarith
  have hba : b = a := by
    have hb1 : b ^ 2 ≤ 1 := by
      have : 0 ≤ dot4 (fun i => w i - dot4 w n' * n' i) (fun i => w i - dot4 w n' * n' i) := dot4_self_nonneg _
      have e : dot4 (fun i => w i - dot4 w n' * n' i) (fun i => w i - dot4 w n' * n' i) =
          dot4 w w - 2 * dot4 w n' * dot4 w n' + dot4 w n' ^ 2 * dot4 n' n' := by
        simp only [dot4]; ring
      rw [e, hw, hn1'] at this
      nlinarith
    have h2 : Spec.sinTo w n' ^ 2 = 1 - b ^ 2 := by
      show √(1 - dot4 w n' ^ 2) ^ 2 = _
      rw [Real.sq_sqrt (by rw [← hbdef]; linarith)]
    rw [hsw, hs2] at h2
    have : b ^ 2 = a ^ 2 := by linarith
    rwa [sq_eq_sq₀ hb.le ha0.le] at this
  refine ⟨e2, e3, hvn, hsv, hsw, hb, ?_⟩
  -- the deviation
  have hu' : ∀ i, u i = N * v i + (N * c - a) * n i := by
    intro i
    have := hperp i
    rw [show dot4 u n = -a by rw [ha]; ring, show dot4 v n = -c by rw [hc]; ring] at this
    linarith
  have hw' : ∀ i, w i = N * v i + (a - N * c) * n' i := by
    intro i
    have := hperp' i
    rw [hvn', hba] at this
    linarith
  have hdev : dot4 w u = 2 * (N + c * (a - N * c)) ^ 2 - 1 := by
    rw [dot4_lin w v n N (N * c - a) hu', dot4_symm w v, dot4_symm w n, dot4_lin v v n' N (a - N * c) hw', dot4_lin n v n' N (a - N * c) hw',
      hv, hvn', hnn', dot4_symm n v, show dot4 v n = -c by rw [hc]; ring]
    linear_combination -hrel
  rw [hdev, Real.cos_two_mul, Real.cos_sub]
  have ht1 : Spec.sinTo u n / N ≤ 1 := by rw [div_le_one hNp]; linarith
  have ht0 : 0 ≤ Spec.sinTo u n / N := by positivity
  rw [Real.sin_arcsin (by linarith) hslt.le, Real.sin_arcsin (by linarith) ht1, Real.cos_arcsin, Real.cos_arcsin, ← hsv, hsv2, hs2, hsv]
  rw [show 1 - (1 - a ^ 2) = a ^ 2 by ring, show 1 - (1 - c ^ 2) = c ^ 2 by ring, Real.sqrt_sq ha0.le, Real.sqrt_sq hc0.le]
  have : Spec.sinTo u n * (Spec.sinTo u n / N) = N * (1 - c ^ 2) := by
    rw [← mul_div_assoc, ← sq, hs2, ← hrel]; field_simp
  rw [this]; ring

/-- **C104, ball lenses.** Let a ray from air enter a ball of glass of index `N` at least 1, and meet the surface of the ball again. It always leaves
there into air (it is never totally reflected), at the angle at which it came in, having travelled 2|ρ| cos t in the ball; its moment about the
centre is as before, and it is turned by 2(i - t), where i and t are the angles of incidence and refraction. -/
theorem C104_ball_lens (ha : IsArgsort argsort) (b : Bench argsort fuel s objs depth sources m)
    (ht : Tracer.Traces k (Tracer.new sources (objs.map (s.component argsort depth)) m limit) f) {r r' r'' : Row} (hr : r ∈ f.frame)
    (hr' : r' ∈ f.frame) (hr'' : r'' ∈ f.frame) (hf : Follows r r') (hf' : Follows r' r'') {c : Vec4} {ρ : ℝ} {x : ℕ}
    (hsp : EndsOnSphere s objs depth c ρ x r) (hsp' : EndsOnSphere s objs depth c ρ x r') {g : IndexModel} (hg : s.material x = .glass g)
    {N : ℝ} (hN : g.indexAt r.wavelength = N) (h1 : 1 ≤ N) (hair : r.index = 1) (hin : dot4 r.dir (surfaceNormal s.heap x r.finish) < 0) :
    let i := Real.arcsin (Spec.sinTo r.dir (surfaceNormal s.heap x r.finish))
    let t := Real.arcsin (Spec.sinTo r.dir (surfaceNormal s.heap x r.finish) / N)
    r'.index = N ∧ r''.index = 1 ∧ dot4 r''.dir r.dir = Real.cos (2 * (i - t)) ∧
      Spec.sinTo r''.dir (surfaceNormal s.heap x r'.finish) = Spec.sinTo r.dir (surfaceNormal s.heap x r.finish) ∧
      √((r'.finish 0 - r.finish 0) ^ 2 + (r'.finish 1 - r.finish 1) ^ 2 + (r'.finish 2 - r.finish 2) ^ 2) = 2 * |ρ| * Real.cos t ∧
      ∀ j, moment c r'.finish r''.dir j = moment c r.finish r.dir j := by
  intro i t
  set rows : ℕ → Row := fun g => if g = 0 then r else if g = 1 then r' else r'' with hrowsdef
  have hrows : ∀ g ≤ 2, rows g ∈ f.frame := by
    intro g hg
    interval_cases g <;> simpa [hrowsdef]
  have hfol : ∀ g < 2, Follows (rows g) (rows (g + 1)) := by
    intro g hg
    interval_cases g <;> simpa [hrowsdef]
  obtain ⟨L, hL, e, hlen⟩ := row_piece ha b ht hrows hfol (g := 1) (by omega)
  have er1 : rows 1 = r' := by simp [hrowsdef]
  have er0 : rows 0 = r := by simp [hrowsdef]
  simp only [rayPoints, er1, er0] at e hlen
  obtain ⟨hp, hρ⟩ := finish_on_sphere ha b ht hr hsp
  obtain ⟨hq, -⟩ := finish_on_sphere ha b ht hr' hsp'
  obtain ⟨c1, c2⟩ := chord hL e (b.unit ha ht hr') hp hq
  have hnorm := sphere_unit_normal ha b ht hr hsp
  have hnorm' := sphere_unit_normal ha b ht hr' hsp'
  have hwl := b.wavelength ha ht hr hr' hf
  obtain ⟨a, haa, id, hx, hid, -⟩ := id hsp
  obtain ⟨a', haa', id', hx', hid', -⟩ := _root_.id hsp'
  obtain ⟨hn1, -, hint⟩ := b.optics ha ht hr hr' hf haa hx hid
  obtain ⟨-, -, hint'⟩ := b.optics ha ht hr' hr'' hf' haa' hx' hid'
  rw [hair, hg] at hint
  rw [hg, hwl] at hint'
  set n := surfaceNormal s.heap x r.finish with hndef
  set n' := surfaceNormal s.heap x r'.finish with hndef'
  have hnn : dot4 n n = 1 := hn1
  -- the ray goes in, so the normal points outwards
  have hvn : dot4 r'.dir n < 0 := by
    have h := hint
    simp only [Interacts, hN] at h
    rw [if_neg (not_lt.2 hin.le)] at h
    rcases h with ⟨-, -, -, -, -, hside, -⟩ | ⟨hle, -⟩
    · exact hside hin.le
    · have : Spec.sinTo r.dir n < 1 := by
        show √(1 - dot4 r.dir n ^ 2) < 1
        rw [Real.sqrt_lt' one_pos]
        have := sq_pos_of_neg hin
        linarith
      linarith
  set μ := (s.heap.obj x).nscale / |ρ| with hμ
  have hρ' : 0 < |ρ| := abs_pos.2 hρ
  have hsm : ∀ v q : Vec4, dot4 v (μ • q) = μ * dot4 v q := fun v q => by simp [dot4]; ring
  have hμ1 : μ = 1 / |ρ| := by
    have h2 : μ ^ 2 * ρ ^ 2 = 1 := by
      rw [← hp, ← hnn, hnorm]; simp [dot4]; ring
    have hpos : 0 < μ := by
      rw [hnorm, hsm, c1] at hvn
      nlinarith
    rw [eq_div_iff hρ'.ne', ← sq_eq_sq₀ (by positivity) one_pos.le, mul_pow, sq_abs, h2]; ring
  have hcL : -dot4 r'.dir n = L / (2 * |ρ|) := by
    rw [hnorm, hsm, c1, hμ1]; field_simp
  have hn' : ∀ i, n' i = n i + 2 * (-dot4 r'.dir n) * r'.dir i := by
    intro i
    rw [hcL, hnorm, hnorm', hμ1, e]
    simp; field_simp; ring
  obtain ⟨k1, k2, -, k4, k5, -, k7⟩ := ball_refraction hN h1 (b.unit ha ht hr) (b.unit ha ht hr') (b.unit ha ht hr'') hnn hin hint hn' hint'
  refine ⟨k1, k2, k7, k5, ?_, fun j => ?_⟩
  · rw [hlen, Real.cos_arcsin, ← k4]
    have : 1 - Spec.sinTo r'.dir n ^ 2 = (L / (2 * |ρ|)) ^ 2 := by
      have hle : dot4 r'.dir n ^ 2 ≤ 1 := by
        have h0 : 0 ≤ dot4 (fun i => r'.dir i - dot4 r'.dir n * n i) (fun i => r'.dir i - dot4 r'.dir n * n i) := dot4_self_nonneg _
        have e0 : dot4 (fun i => r'.dir i - dot4 r'.dir n * n i) (fun i => r'.dir i - dot4 r'.dir n * n i) =
            dot4 r'.dir r'.dir - 2 * dot4 r'.dir n * dot4 r'.dir n + dot4 r'.dir n ^ 2 * dot4 n n := by
          simp only [dot4]; ring
        rw [e0, b.unit ha ht hr', hnn] at h0
        nlinarith
      show 1 - √(1 - dot4 r'.dir n ^ 2) ^ 2 = _
      rw [Real.sq_sqrt (by linarith), ← hcL]; ring
    rw [this, Real.sqrt_sq (by positivity)]; field_simp
  · obtain ⟨hm, -⟩ := C104_concentric ha b ht hrows hfol (c := c) (by
      intro g hg
      interval_cases g
      · exact ⟨ρ, x, by simpa [hrowsdef] using hsp⟩
      · exact ⟨ρ, x, by simpa [hrowsdef] using hsp'⟩)
    have h2 := (hm 2 le_rfl j).trans (hm 0 (by omega) j).symm
    obtain ⟨L2, -, e2, -⟩ := row_piece ha b ht hrows hfol (g := 2) le_rfl
    have er2 : rows 2 = r'' := by simp [hrowsdef]
    simp only [rayPoints, er1, er2] at e2
    rw [er0, er2, k2, hair, one_mul, one_mul, e2] at h2
    rw [← h2]
    fin_cases j <;> simp [moment] <;> ring

end

/-! ### Examples: a ball of glass of index 4/3 inside an absorbing sphere, and a spherical mirror, with rays off the axis -/

theorem unit_sphere_hits {R y z dy dz k : ℝ} (hd : dy ^ 2 + dz ^ 2 = 1) (hk : 0 ≤ k) (hR : k ^ 2 = (y * dy + z * dz) ^ 2 - (y ^ 2 + z ^ 2) + R ^ 2) :
    sort2 ((Prim.sphere R).intersect (planeRay y z dy dz)) = (((-(y * dy + z * dz) - k : ℝ) : EReal), ((-(y * dy + z * dz) + k : ℝ) : EReal)) := by
  have a1 : (planeRay y z dy dz).d 0 * (planeRay y z dy dz).d 0 + (planeRay y z dy dz).d 1 * (planeRay y z dy dz).d 1 +
      (planeRay y z dy dz).d 2 * (planeRay y z dy dz).d 2 = 1 := by
    simp [planeRay, vector]; nlinarith
  have b1 : (planeRay y z dy dz).d 0 * (planeRay y z dy dz).o 0 + (planeRay y z dy dz).d 1 * (planeRay y z dy dz).o 1 +
      (planeRay y z dy dz).d 2 * (planeRay y z dy dz).o 2 = y * dy + z * dz := by
    simp [planeRay, vector, point]; ring
  have c1 : (planeRay y z dy dz).o 0 * (planeRay y z dy dz).o 0 + (planeRay y z dy dz).o 1 * (planeRay y z dy dz).o 1 +
      (planeRay y z dy dz).o 2 * (planeRay y z dy dz).o 2 = y ^ 2 + z ^ 2 := by
    simp [planeRay, point]; ring
  have hle : ((-(y * dy + z * dz) - k : ℝ) : EReal) ≤ ((-(y * dy + z * dz) + k : ℝ) : EReal) := EReal.coe_le_coe_iff.2 (by linarith)
  have e : sphereIntersect R (planeRay y z dy dz) = (((-(y * dy + z * dz) + k : ℝ) : EReal), ((-(y * dy + z * dz) - k : ℝ) : EReal)) := by
    unfold sphereIntersect
    dsimp only
    rw [if_neg (by rw [a1]; exact one_ne_zero), a1, b1, c1]
    have h2 : (2 * (y * dy + z * dz)) ^ 2 - 4 * 1 * (y ^ 2 + z ^ 2 - R ^ 2) = (2 * k) ^ 2 := by
      linear_combination -4 * hR
    rw [h2, polyRoots, if_pos (by positivity)]
    rw [max_eq_right (by positivity), Real.sqrt_sq (by positivity)]
    congr 2 <;> ring
  rw [Prim.intersect, e]
  simp only [sort2, min_eq_right hle, max_eq_left hle]

/-- the two concentric spheres, of radii 1.7 and 1 -/
noncomputable def shells (m : Material) : Scene := pair (.sphere 1.7) (.sphere 1) (fun a => if a = 0 then .absorber else m)

theorem shells_surfaces (m : Material) : surfaceIds 1 (shells m).heap 0 = [(0, 0)] ∧ surfaceIds 1 (shells m).heap 1 = [(1, 1)] := by
  obtain ⟨⟨k0, -, i0, -⟩, ⟨k1, -, i1, -⟩, -⟩ := pair_obj (.sphere 1.7) (.sphere 1) (fun a => if a = 0 then Material.absorber else m)
  constructor
  · rw [surfaceIds]; simp only [shells, k0, i0]
  · rw [surfaceIds]; simp only [shells, k1, i1]

/-- the nearest hit in the shells, on the inner sphere (entering or leaving) or the outer one -/
theorem shells_nearest (argsort : List EReal → List ℕ) (m : Material) {y z dy dz k K d : ℝ} (hd : dy ^ 2 + dz ^ 2 = 1) (hk : 0 ≤ k) (hK : 0 ≤ K)
    (h1 : k ^ 2 = (y * dy + z * dz) ^ 2 - (y ^ 2 + z ^ 2) + 1 ^ 2) (h2 : K ^ 2 = (y * dy + z * dz) ^ 2 - (y ^ 2 + z ^ 2) + 1.7 ^ 2) (hd0 : 0 < d)
    (hA : -(y * dy + z * dz) - K ≤ 0) (hB : d ≤ -(y * dy + z * dz) + K) (hC : -(y * dy + z * dz) - k ≤ 0 ∨ d ≤ -(y * dy + z * dz) - k)
    (hD : -(y * dy + z * dz) + k ≤ 0 ∨ d ≤ -(y * dy + z * dz) + k) :
    (d = -(y * dy + z * dz) + K → Nearest ([0, 1].map ((shells m).component argsort 1)) (planeRay y z dy dz) d 0) ∧
    (d < -(y * dy + z * dz) + K → (d = -(y * dy + z * dz) - k ∨ d = -(y * dy + z * dz) + k) →
      Nearest ([0, 1].map ((shells m).component argsort 1)) (planeRay y z dy dz) d 1) := by
  have le : ∀ {a : ℝ}, (a ≤ 0 ∨ d ≤ a) → 0 < (a : EReal) → (d : EReal) ≤ (a : EReal) := by
    intro a h hp
    have : 0 < a := by exact_mod_cast hp
    exact EReal.coe_le_coe_iff.2 (h.resolve_left (not_le.2 this))
  obtain ⟨c1, c2⟩ := pair_nearest argsort _ _ (fun a => if a = 0 then Material.absorber else m) (planeRay y z dy dz) (unit_sphere_hits hd hK h2)
    (unit_sphere_hits hd hk h1) hd0 (le (Or.inl hA)) (le (Or.inr hB)) (le hC) (le hD)
  refine ⟨fun h => c1 (Or.inr (by rw [h])), fun h h' => c2 ?_ ?_ ?_⟩
  · rw [ne_eq, EReal.coe_eq_coe_iff]; intro e; linarith
  · rw [ne_eq, EReal.coe_eq_coe_iff]; intro e; linarith
  · rcases h' with h' | h'
    · left; rw [h']
    · right; rw [h']

theorem shells_normal (m : Material) {y z : ℝ} (h : y ^ 2 + z ^ 2 = 1) : surfaceNormal (shells m).heap 1 (point 0 y z) = vector 0 y z := by
  obtain ⟨-, ⟨k1, t1, -, s1⟩, -⟩ := pair_obj (.sphere 1.7) (.sphere 1) (fun a => if a = 0 then Material.absorber else m)
  simp only [surfaceNormal, shells, k1, worldNormal, t1, s1, one_smul, Matrix.transpose_one, Matrix.one_mulVec]
  have h1 : Prim.normal (.sphere 1) (point 0 y z) = vector 0 y z := by
    funext i
    fin_cases i <;> simp [Prim.normal, normalize, point, vector, norm4, h]
  rw [h1]
  funext i
  fin_cases i <;> simp [normalize, zeroW, vector, norm4, h]

theorem shells_bench (argsort : List EReal → List ℕ) {m : Material} (hm : ∀ g, m = .glass g → 0 < g.indexAt 0.633) {y z dy dz : ℝ} (hd : dy ^ 2 + dz ^ 2 = 1) :
    Bench argsort 1 (shells m) [0, 1] 1 [fun _ => [plateCol y z dy dz 1 0]] 1 where
  history := ReachesBy.placed argsort (.step (.newPrim _) (.step (.newPrim _) (.refl _) trivial (fun _ _ h => by cases h) rfl) trivial (fun _ _ h => by cases h) rfl)
  exist a h := by
    rw [shells, (pair_obj _ _ _).2.2]
    simp at h; omega
  distinct := by simp [shells_surfaces]
  sized a h x id p hx hk := by
    obtain ⟨⟨k0, -⟩, ⟨k1, -⟩, -⟩ := pair_obj (.sphere 1.7) (.sphere 1) (fun a => if a = 0 then Material.absorber else m)
    simp only [List.mem_cons, List.not_mem_nil, or_false] at h
    rcases h with rfl | rfl
    · rw [(shells_surfaces m).1] at hx
      simp only [List.mem_singleton, Prod.mk.injEq] at hx
      obtain ⟨-, rfl⟩ := hx
      rw [shells, k0] at hk
      cases hk; show (1.7 : ℝ) ≠ 0; norm_num
    · rw [(shells_surfaces m).2] at hx
      simp only [List.mem_singleton, Prod.mk.injEq] at hx
      obtain ⟨-, rfl⟩ := hx
      rw [shells, k1] at hk
      cases hk; show (1 : ℝ) ≠ 0; norm_num
  emits f hf c hc := by
    simp only [List.mem_singleton] at hf
    subst hf
    simp only [List.mem_singleton] at hc
    subst hc
    exact ⟨by simp [plateCol], rfl, rfl, by simp [plateCol, planeRay, norm4, vector, hd]⟩
  positive f hf c hc := by
    simp only [List.mem_singleton] at hf
    subst hf
    simp only [List.mem_singleton] at hc
    subst hc
    refine ⟨by simp [plateCol], fun a _ x id g _ hg => ?_⟩
    simp only [shells, pair] at hg
    split at hg
    · cases hg
    · exact hm g hg

theorem shells_ends (m : Material) {r : Row} (hr : r.surface = 1) : EndsOnSphere (shells m) [0, 1] 1 (point 0 0 0) 1 1 r := by
  have hw : ((shells m).heap.obj 1).world = 1 := by simp [shells, pair, newPrim, Heap.alloc, Heap.empty]
  refine ⟨1, by simp, 1, by simp [shells_surfaces], by simpa using hr, (pair_obj _ _ _).2.1.1, ?_, ?_⟩
  · rw [hw]; exact ⟨row_one, fun v _ => by rw [one_mulVec]⟩
  · rw [hw, one_mulVec]

/-- a ray in the plane x = 0 that meets the inner sphere -/
theorem shells_step {argsort : List EReal → List ℕ} {m : Material} {c0 : Col} {limit : ℤ} {y z dy dz i d y' z' dy' dz' i' : ℝ} {g : ℕ}
    (hj : Journey (Tracer.new [fun _ => [c0]] ([0, 1].map ((shells m).component argsort 1)) 1 limit) c0 g (plateCol y z dy dz i g))
    (hd : dy ^ 2 + dz ^ 2 = 1) (hn : Nearest ([0, 1].map ((shells m).component argsort 1)) (planeRay y z dy dz) d 1) (hy : y + d * dy = y') (hz : z + d * dz = z')
    (hm : { m.trace (surfaceNormal (shells m).heap 1) (plateCol y' z' dy dz i g) with generation := (g : ℝ) + 1 } = plateCol y' z' dy' dz' i' (g + 1)) :
    Journey (Tracer.new [fun _ => [c0]] ([0, 1].map ((shells m).component argsort 1)) 1 limit) c0 (g + 1)
      (plateCol (y' + 1e-6 * dy') (z' + 1e-6 * dz') dy' dz' i' (g + 1)) := by
  have h := hj.next (not_extinct_of_unit (by simp [plateCol, planeRay, norm4, vector, hd])) hn
    (f := fun c => ((shells m).material 1).trace (surfaceNormal (shells m).heap 1) c)
    (by simp [Tracer.new, Scene.component, shells_surfaces])
  rw [moved_plateCol, hy, hz] at h
  have e : (shells m).material 1 = m := by simp [shells, pair]
  simp only [e] at h
  rw [hm, moved_plateCol] at h
  exact h

/-- a column of a journey and its nearest hit give a row -/
theorem shells_row {argsort : List EReal → List ℕ} {m : Material} {y0 z0 dy0 dz0 y z dy dz i d : ℝ} {g k : ℕ} {t' : Tracer} {sf : ℤ}
    (ha : IsArgsort argsort) (b : Bench argsort 1 (shells m) [0, 1] 1 [fun _ => [plateCol y0 z0 dy0 dz0 1 0]] 1)
    (h : Tracer.Traces k (Tracer.new [fun _ => [plateCol y0 z0 dy0 dz0 1 0]] ([0, 1].map ((shells m).component argsort 1)) 1 3) t')
    (hj : Journey (Tracer.new [fun _ => [plateCol y0 z0 dy0 dz0 1 0]] ([0, 1].map ((shells m).component argsort 1)) 1 3) (plateCol y0 z0 dy0 dz0 1 0) g
      (plateCol y z dy dz i g))
    (hd : dy ^ 2 + dz ^ 2 = 1) (hn : Nearest ([0, 1].map ((shells m).component argsort 1)) (planeRay y z dy dz) d sf) (hg : g < 3) :
    ∃ r ∈ t'.frame, r.id = 0 ∧ r.generation = g ∧ r.surface = sf ∧ r.index = i ∧ r.wavelength = 0.633 ∧ r.dir = vector 0 dy dz ∧
      r.finish = point 0 (y + d * dy) (z + d * dz) := by
  obtain ⟨r, hr⟩ := segment_exists (plateCol y z dy dz i g) d sf
  refine ⟨r, (trace_iff (b.ok ha 3) h r).2 ⟨0, g, fun _ => ?_, _, _, _, _, ⟨plateCol y0 z0 dy0 dz0 1 0, rfl, by simp [plateCol]⟩, hj,
    not_extinct_of_unit (by simp [plateCol, planeRay, norm4, vector, hd]), hn, hr⟩, hr.id, hr.generation, hr.surface, hr.index, hr.wavelength, ?_, ?_⟩
  · show (g : ℤ) < 3
    exact_mod_cast hg
  · have e : √(dy ^ 2 + dz ^ 2) = 1 := by rw [hd, Real.sqrt_one]
    funext i
    fin_cases i <;> simp only [Row.dir, vector, hr.tilt] <;> simp [plateCol, planeRay, vector, e]
  · funext i
    fin_cases i <;> simp only [Row.finish, point, hr.stop] <;> simp [plateCol, planeRay, vector, point]

/-- a ray at 0.8 from the axis enters the ball of glass at (0, 0.8, -0.6), leaves it at (0, 0.352, 0.936) and is absorbed -/
theorem shells_rows (ha : IsArgsort argsort) : ∃ (k : ℕ) (t' : Tracer) (r r' r'' : Row),
    Tracer.Traces k (Tracer.new [fun _ => [plateCol 0.8 (-1) 0 1 1 0]] ([0, 1].map ((shells (.glass (.basic (4 / 3)))).component argsort 1)) 1 3) t' ∧
    r ∈ t'.frame ∧ r' ∈ t'.frame ∧ r'' ∈ t'.frame ∧ Follows r r' ∧ Follows r' r'' ∧ r.surface = 1 ∧ r'.surface = 1 ∧ r''.surface = 0 ∧ r.index = 1 ∧
    r.dir = vector 0 0 1 ∧ r'.dir = vector 0 (-0.28) 0.96 ∧ r''.dir = vector 0 (-0.5376) 0.8432 ∧ r.finish = point 0 0.8 (-0.6) ∧
    r'.finish = point 0 0.352 0.936 := by
  set m : Material := .glass (.basic (4 / 3)) with hm
  have b : Bench argsort 1 (shells m) [0, 1] 1 [fun _ => [plateCol 0.8 (-1) 0 1 1 0]] 1 :=
    shells_bench argsort (fun g hg => by rw [hm] at hg; cases hg; simp [IndexModel.indexAt]) (by norm_num)
  have ok := b.ok ha 3
  obtain ⟨k, t', h, -⟩ := C26_terminates (Tracer.new [fun _ => [plateCol 0.8 (-1) 0 1 1 0]] ([0, 1].map ((shells m).component argsort 1)) 1 3)
    (by simp [Tracer.new]) (by simp [Tracer.new]) (fun s hs c hc => (ok.emits s hs c hc).1)
  have n0 : Nearest ([0, 1].map ((shells m).component argsort 1)) (planeRay 0.8 (-1) 0 1) 0.4 1 :=
    (shells_nearest argsort m (k := 0.6) (K := 1.5) (by norm_num) (by norm_num) (by norm_num) (by norm_num) (by norm_num) (by norm_num) (by norm_num)
      (by norm_num) (Or.inr (by norm_num)) (Or.inr (by norm_num))).2 (by norm_num) (Or.inl (by norm_num))
  have j1 := shells_step (limit := 3) (Journey.start (t := Tracer.new [fun _ => [plateCol 0.8 (-1) 0 1 1 0]] ([0, 1].map ((shells m).component argsort 1)) 1 3)
    (c0 := plateCol 0.8 (-1) 0 1 1 0)) (by norm_num) n0 (y' := 0.8) (z' := -0.6) (dy' := -0.28) (dz' := 0.96) (i' := 4 / 3) (by norm_num) (by norm_num) (by
      apply glass_plateCol
      rw [shells_normal _ (by norm_num)]
      apply refract_value
      · simp [dot4, vector]
      · simp [dot4, vector]; norm_num
      · norm_num
      · norm_num
      · norm_num
      · rw [if_neg]; simp [dot4, vector]; norm_num
      · simp [dot4, vector]; norm_num
      · rw [one_mul, Spec.sinTo, Real.sqrt_lt' (by norm_num)]
        simp [dot4, vector]; norm_num
      · intro i; fin_cases i <;> simp [dot4, vector] <;> norm_num
      · simp [dot4, vector]; norm_num
      · simp [dot4, vector]; norm_num)
  have n1 : Nearest ([0, 1].map ((shells m).component argsort 1)) (planeRay (0.8 + 1e-6 * (-0.28)) (-0.6 + 1e-6 * 0.96) (-0.28) 0.96) (1.6 - 1e-6) 1 :=
    (shells_nearest argsort m (k := 0.8) (K := √2.53) (by norm_num) (by norm_num) (by positivity) (by norm_num)
      (by rw [Real.sq_sqrt (by norm_num)]; norm_num) (by norm_num)
      (by have : (1.5 : ℝ) < √2.53 := by rw [Real.lt_sqrt (by norm_num)]; norm_num
          norm_num at this ⊢; linarith)
      (by have : (1.5 : ℝ) < √2.53 := by rw [Real.lt_sqrt (by norm_num)]; norm_num
          norm_num at this ⊢; linarith) (Or.inl (by norm_num)) (Or.inr (by norm_num))).2
      (by have : (1.5 : ℝ) < √2.53 := by rw [Real.lt_sqrt (by norm_num)]; norm_num
          norm_num at this ⊢; linarith) (Or.inr (by norm_num))
  have j2 := shells_step j1 (by norm_num) n1 (y' := 0.352) (z' := 0.936) (dy' := -0.5376) (dz' := 0.8432) (i' := 1) (by norm_num) (by norm_num) (by
      apply glass_plateCol
      rw [shells_normal _ (by norm_num)]
      apply refract_value
      · simp [dot4, vector]; norm_num
      · simp [dot4, vector]; norm_num
      · norm_num
      · norm_num
      · norm_num
      · rw [if_pos]; simp [dot4, vector]; norm_num
      · simp [dot4, vector]; norm_num
      · rw [show (1 : ℝ) = 4 / 3 * (3 / 4) by norm_num]
        refine mul_lt_mul_of_pos_left ?_ (by norm_num)
        rw [Spec.sinTo, Real.sqrt_lt' (by norm_num)]
        simp [dot4, vector]; norm_num
      · intro i; fin_cases i <;> simp [dot4, vector] <;> norm_num
      · simp [dot4, vector]; norm_num
      · simp [dot4, vector]; norm_num)
  have n2 : Nearest ([0, 1].map ((shells m).component argsort 1)) (planeRay (0.352 + 1e-6 * (-0.5376)) (0.936 + 1e-6 * 0.8432) (-0.5376) 0.8432) (0.9 - 1e-6) 0 :=
    (shells_nearest argsort m (k := 0.6) (K := 1.5) (by norm_num) (by norm_num) (by norm_num) (by norm_num) (by norm_num) (by norm_num) (by norm_num)
      (by norm_num) (Or.inl (by norm_num)) (Or.inl (by norm_num))).1 (by norm_num)
  obtain ⟨r, hr, a1, a2, a3, a4, -, a6, a7⟩ := shells_row ha b h .start (by norm_num) n0 (by norm_num)
  obtain ⟨r', hr', b1, b2, b3, b4, -, b6, b7⟩ := shells_row ha b h j1 (by norm_num) n1 (by norm_num)
  obtain ⟨r'', hr'', c1, c2, c3, c4, -, c6, c7⟩ := shells_row ha b h j2 (by norm_num) n2 (by norm_num)
  refine ⟨k, t', r, r', r'', h, hr, hr', hr'', ⟨by rw [a1, b1], by rw [a2, b2]; push_cast; ring⟩, ⟨by rw [b1, c1], by rw [b2, c2]; push_cast; ring⟩, a3, b3, c3, a4,
    a6, b6, c6, ?_, ?_⟩
  · rw [a7]; norm_num
  · rw [b7]; norm_num

/-- non-vacuity of `C104_ball_lens` and `C104_concentric` (for three rows and two refractions) -/
example (ha : IsArgsort argsort) : ∃ (k : ℕ) (t' : Tracer) (r r' r'' : Row),
    Tracer.Traces k (Tracer.new [fun _ => [plateCol 0.8 (-1) 0 1 1 0]] ([0, 1].map ((shells (.glass (.basic (4 / 3)))).component argsort 1)) 1 3) t' ∧
    r ∈ t'.frame ∧ r' ∈ t'.frame ∧ r'' ∈ t'.frame ∧ r.dir = vector 0 0 1 ∧ r''.dir = vector 0 (-0.5376) 0.8432 ∧ r'.index = 4 / 3 ∧ r''.index = 1 ∧
    (0.8432 : ℝ) = Real.cos (2 * (Real.arcsin 0.8 - Real.arcsin (0.8 / (4 / 3)))) ∧
    ∀ j, moment (point 0 0 0) r'.finish r''.dir j = moment (point 0 0 0) r.finish r.dir j := by
  obtain ⟨k, t', r, r', r'', h, hr, hr', hr'', f1, f2, s1, s2, s3, i1, d1, d2, d3, p1, p2⟩ := shells_rows ha
  have b : Bench argsort 1 (shells (.glass (.basic (4 / 3)))) [0, 1] 1 [fun _ => [plateCol 0.8 (-1) 0 1 1 0]] 1 :=
    shells_bench argsort (fun g hg => by cases hg; simp [IndexModel.indexAt]) (by norm_num)
  have hnor : surfaceNormal (shells (.glass (.basic (4 / 3)))).heap 1 r.finish = vector 0 0.8 (-0.6) := by
    rw [p1, shells_normal _ (by norm_num)]
  have hs : Spec.sinTo (vector 0 0 1) (vector 0 0.8 (-0.6)) = 0.8 := by
    rw [Spec.sinTo, Real.sqrt_eq_iff_mul_self_eq (by simp [dot4, vector]; norm_num) (by norm_num)]
    simp [dot4, vector]; norm_num
  obtain ⟨e1, e2, e3, -, -, e6⟩ := C104_ball_lens ha b h hr hr' hr'' f1 f2 (shells_ends _ s1) (shells_ends _ s2) (g := .basic (4 / 3)) (N := 4 / 3)
    (by simp [shells, pair]) rfl (by norm_num) i1 (by rw [hnor, d1]; simp [dot4, vector]; norm_num)
  refine ⟨k, t', r, r', r'', h, hr, hr', hr'', d1, d3, e1, e2, ?_, e6⟩
  rw [hnor, d1, d3, hs] at e3
  rw [← e3]
  simp [dot4, vector]

/-- non-vacuity of `C104_billiard`: a chord of the spherical mirror off the axis -/
example (ha : IsArgsort argsort) : ∃ (k : ℕ) (t' : Tracer) (r r' : Row),
    Tracer.Traces k (Tracer.new [fun _ => [plateCol 0.6 0 0 1 1 0]] ([0, 1].map ((shells .mirror).component argsort 1)) 1 3) t' ∧
    r ∈ t'.frame ∧ r' ∈ t'.frame ∧ Follows r r' ∧ r.dir = vector 0 0 1 ∧ r.finish = point 0 0.6 0.8 ∧
    √((r'.finish 0 - r.finish 0) ^ 2 + (r'.finish 1 - r.finish 1) ^ 2 + (r'.finish 2 - r.finish 2) ^ 2) = 1.6 ∧
    dot4 r'.dir r.dir = 1 - 2 * 0.8 ^ 2 := by
  have b : Bench argsort 1 (shells .mirror) [0, 1] 1 [fun _ => [plateCol 0.6 0 0 1 1 0]] 1 :=
    shells_bench argsort (fun g hg => by cases hg) (by norm_num)
  have ok := b.ok ha 3
  obtain ⟨k, t', h, -⟩ := C26_terminates (Tracer.new [fun _ => [plateCol 0.6 0 0 1 1 0]] ([0, 1].map ((shells .mirror).component argsort 1)) 1 3)
    (by simp [Tracer.new]) (by simp [Tracer.new]) (fun s hs c hc => (ok.emits s hs c hc).1)
  have hK : (1.59 : ℝ) < √2.53 := by rw [Real.lt_sqrt (by norm_num)]; norm_num
  have n0 : Nearest ([0, 1].map ((shells .mirror).component argsort 1)) (planeRay 0.6 0 0 1) 0.8 1 :=
    (shells_nearest argsort .mirror (k := 0.8) (K := √2.53) (by norm_num) (by norm_num) (by positivity) (by norm_num)
      (by rw [Real.sq_sqrt (by norm_num)]; norm_num) (by norm_num) (by norm_num at hK ⊢; positivity) (by norm_num at hK ⊢; linarith)
      (Or.inl (by norm_num)) (Or.inr (by norm_num))).2 (by norm_num at hK ⊢; linarith) (Or.inr (by norm_num))
  have j1 := shells_step (limit := 3) (Journey.start (t := Tracer.new [fun _ => [plateCol 0.6 0 0 1 1 0]] ([0, 1].map ((shells .mirror).component argsort 1)) 1 3)
    (c0 := plateCol 0.6 0 0 1 1 0)) (by norm_num) n0 (y' := 0.6) (z' := 0.8) (dy' := -0.96) (dz' := -0.28) (i' := 1) (by norm_num) (by norm_num) (by
      have e : (plateCol 0.6 0.8 0 1 1 0).ray.o = point 0 0.6 0.8 := rfl
      simp only [Material.trace, e]
      rw [shells_normal _ (by norm_num)]
      simp only [plateCol, planeRay, Nat.cast_add, Nat.cast_one, Col.mk.injEq, Ray.mk.injEq, and_true, true_and]
      funext i; fin_cases i <;> simp [dot4, vector] <;> norm_num)
  have n1 : Nearest ([0, 1].map ((shells .mirror).component argsort 1)) (planeRay (0.6 + 1e-6 * (-0.96)) (0.8 + 1e-6 * (-0.28)) (-0.96) (-0.28)) (1.6 - 1e-6) 1 :=
    (shells_nearest argsort .mirror (k := 0.8) (K := √2.53) (by norm_num) (by norm_num) (by positivity) (by norm_num)
      (by rw [Real.sq_sqrt (by norm_num)]; norm_num) (by norm_num) (by norm_num at hK ⊢; linarith) (by norm_num at hK ⊢; linarith)
      (Or.inl (by norm_num)) (Or.inr (by norm_num))).2 (by norm_num at hK ⊢; linarith) (Or.inr (by norm_num))
  obtain ⟨r, hr, a1, a2, a3, a4, -, a6, a7⟩ := shells_row ha b h .start (by norm_num) n0 (by norm_num)
  obtain ⟨r', hr', b1, b2, b3, b4, -, b6, b7⟩ := shells_row ha b h j1 (by norm_num) n1 (by norm_num)
  have hf : Follows r r' := ⟨by rw [a1, b1], by rw [a2, b2]; push_cast; ring⟩
  have hfin : r.finish = point 0 0.6 0.8 := by rw [a7]; norm_num
  obtain ⟨-, e1, -, -, e2, -⟩ := C104_billiard ha b h (n := 1) (rows := fun g => if g = 0 then r else r')
    (fun g _ => by split <;> assumption) (fun g hg => by interval_cases g; simpa using hf) (c := point 0 0 0) (ρ := 1) (x := 1)
    (fun g _ => by split <;> exact shells_ends _ (by assumption)) (fun g _ => Or.inl (by simp [shells, pair])) 0 one_pos
  simp only [if_true, zero_add, one_ne_zero, if_false] at e1 e2
  have hh : dot4 r.dir (r.finish - point 0 0 0) = 0.8 := by
    rw [a6, hfin]; simp [dot4, vector, point]
  refine ⟨k, t', r, r', h, hr, hr', hf, a6, hfin, ?_, ?_⟩
  · rw [e1, hh]; norm_num
  · rw [e2, hh]; norm_num

end PyRayT
