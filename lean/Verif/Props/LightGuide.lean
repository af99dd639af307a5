import Verif.Props.Spheres

/-!
# Property C105: rods of glass guide light
-/

namespace PyRayT

open Classical Matrix Spec

variable {argsort : List EReal → List ℕ} {fuel : ℕ} {s : Scene} {objs : List ℕ} {depth : ℕ}

/-! ### The three interactions -/

/-- Bessel's inequality for two perpendicular unit vectors -/
theorem bessel {v n z : Vec4} (hv : dot4 v v = 1) (hn : dot4 n n = 1) (hz : dot4 z z = 1) (hnz : dot4 n z = 0) :
    dot4 v n ^ 2 + dot4 v z ^ 2 ≤ 1 := by
  have h := dot4_self_nonneg (fun i => v i - dot4 v n * n i - dot4 v z * z i)
  have e : dot4 (fun i => v i - dot4 v n * n i - dot4 v z * z i) (fun i => v i - dot4 v n * n i - dot4 v z * z i) =
      dot4 v v - 2 * dot4 v n * dot4 v n - 2 * dot4 v z * dot4 v z + dot4 v n ^ 2 * dot4 n n + dot4 v z ^ 2 * dot4 z z +
        2 * dot4 v n * dot4 v z * dot4 n z := by
    simp only [dot4]; ring
  rw [e, hv, hn, hz, hnz] at h
  nlinarith

theorem dot_le_one {u z : Vec4} (hu : dot4 u u = 1) (hz : dot4 z z = 1) : dot4 u z ^ 2 ≤ 1 := by
  have h := dot4_self_nonneg (fun i => u i - dot4 u z * z i)
  have e : dot4 (fun i => u i - dot4 u z * z i) (fun i => u i - dot4 u z * z i) = dot4 u u - 2 * dot4 u z * dot4 u z + dot4 u z ^ 2 * dot4 z z := by
    simp only [dot4]; ring
  rw [e, hu, hz] at h
  nlinarith

theorem sinTo_sq {u z : Vec4} (hu : dot4 u u = 1) (hz : dot4 z z = 1) : Spec.sinTo u z ^ 2 = 1 - dot4 u z ^ 2 :=
  Real.sq_sqrt (by linarith [dot_le_one hu hz])

/-- into the guide, through a face across the axis `z` -/
theorem guide_enter {g : IndexModel} {wl n2 σ : ℝ} {u v n z : Vec4} (hu : dot4 u u = 1) (hv : dot4 v v = 1) (hz : dot4 z z = 1)
    (hσ : σ ^ 2 = 1) (hn : n = σ • z) (hN : 1 ≤ g.indexAt wl) (hin : dot4 u n < 0) (hi : Interacts (.glass g) wl n u 1 v n2) :
    n2 = g.indexAt wl ∧ dot4 v n < 0 ∧ g.indexAt wl ^ 2 * (1 - dot4 v z ^ 2) = 1 - dot4 u z ^ 2 := by
  have hsm : ∀ q : Vec4, dot4 q n = σ * dot4 q z := fun q => by rw [hn]; simp [dot4]; ring
  have hn1 : dot4 n n = 1 := by rw [hsm, hn]; simp [dot4] at hz ⊢; linear_combination σ ^ 2 * hz + hσ
  have hsq : ∀ q : Vec4, dot4 q n ^ 2 = dot4 q z ^ 2 := fun q => by rw [hsm, mul_pow, hσ, one_mul]
  simp only [Interacts] at hi
  rw [if_neg (not_lt.2 hin.le)] at hi
  rcases hi with ⟨-, -, -, hsn, -, hside, e2⟩ | ⟨hle, -⟩
  · refine ⟨e2, hside hin.le, ?_⟩
    have h1 := sinTo_sq hu hn1
    have h2 := sinTo_sq hv hn1
    rw [one_mul] at hsn
    rw [hsn, mul_pow, h2, hsq, hsq] at h1
    exact h1
  · exfalso
    have : Spec.sinTo u n < 1 := by
      show √(1 - dot4 u n ^ 2) < 1
      rw [Real.sqrt_lt' one_pos]
      have := sq_pos_of_neg hin
      linarith
    linarith

/-- at the wall of the guide, from inside -/
theorem guide_wall {g : IndexModel} {wl n2 : ℝ} {v w n z : Vec4} (hv : dot4 v v = 1) (hn : dot4 n n = 1) (hz : dot4 z z = 1) (hnz : dot4 n z = 0)
    (hN : 0 < g.indexAt wl) (hax : 1 ≤ g.indexAt wl ^ 2 * dot4 v z ^ 2) (hout : 0 ≤ dot4 v n) (hi : Interacts (.glass g) wl n v (g.indexAt wl) w n2) :
    n2 = g.indexAt wl ∧ dot4 w z = dot4 v z ∧ ∀ i, w i = v i - 2 * dot4 v n * n i := by
  have hb := bessel hv hn hz hnz
  have hle : (if 0 < dot4 v n then 1 else g.indexAt wl) ≤ g.indexAt wl * Spec.sinTo v n := by
    split
    · have : 1 ≤ (g.indexAt wl * Spec.sinTo v n) ^ 2 := by
        rw [mul_pow, sinTo_sq hv hn]
        have := mul_le_mul_of_nonneg_left (show dot4 v z ^ 2 ≤ 1 - dot4 v n ^ 2 by linarith) (sq_nonneg (g.indexAt wl))
        linarith
      have h0 : 0 ≤ g.indexAt wl * Spec.sinTo v n := mul_nonneg hN.le (Real.sqrt_nonneg _)
      nlinarith
    · have h0 : dot4 v n = 0 := le_antisymm (by linarith) hout
      have : Spec.sinTo v n = 1 := by
        show √(1 - dot4 v n ^ 2) = 1
        rw [h0]; norm_num
      rw [this]; linarith
  simp only [Interacts] at hi
  rcases hi with ⟨hlt, -⟩ | ⟨-, hw, e2⟩
  · exact absurd hlt (not_lt.2 hle)
  · refine ⟨e2, ?_, hw⟩
    have : dot4 w z = dot4 v z - 2 * dot4 v n * dot4 n z := by simp only [dot4, hw]; ring
    rw [this, hnz]; ring

/-- out of the guide, through a face across the axis -/
theorem guide_exit {g : IndexModel} {wl n2 σ S : ℝ} {v w n z : Vec4} (hv : dot4 v v = 1) (hw : dot4 w w = 1) (hz : dot4 z z = 1)
    (hσ : σ ^ 2 = 1) (hn : n = σ • z) (hN : 0 < g.indexAt wl) (hS : g.indexAt wl ^ 2 * (1 - dot4 v z ^ 2) = 1 - S ^ 2) (hS0 : S ≠ 0) (hout : 0 < dot4 v n)
    (hi : Interacts (.glass g) wl n v (g.indexAt wl) w n2) : n2 = 1 ∧ 0 < dot4 w n ∧ dot4 w z ^ 2 = S ^ 2 := by
  have hsm : ∀ q : Vec4, dot4 q n = σ * dot4 q z := fun q => by rw [hn]; simp [dot4]; ring
  have hn1 : dot4 n n = 1 := by rw [hsm, hn]; simp [dot4] at hz ⊢; linear_combination σ ^ 2 * hz + hσ
  have hsq : ∀ q : Vec4, dot4 q n ^ 2 = dot4 q z ^ 2 := fun q => by rw [hsm, mul_pow, hσ, one_mul]
  have h2 := sinTo_sq hv hn1
  have hs : (g.indexAt wl * Spec.sinTo v n) ^ 2 = 1 - S ^ 2 := by rw [mul_pow, h2, hsq, hS]
  simp only [Interacts] at hi
  rw [if_pos hout] at hi
  rcases hi with ⟨-, -, -, hsn, hside, -, e2⟩ | ⟨hle, -⟩
  · refine ⟨e2, hside hout, ?_⟩
    rw [hsn, one_mul, sinTo_sq hw hn1, hsq] at hs
    linarith
  · exfalso
    have : 0 < S ^ 2 := by positivity
    nlinarith

section
variable {sources : List (ℕ → List Col)} {m : ℕ} {limit : ℤ} {k : ℕ} {f : Tracer}

/-- The row ends on one of the surfaces of the system, and `x` is this surface. -/
def Spec.EndsOn (s : Scene) (objs : List ℕ) (depth : ℕ) (x : ℕ) (r : Row) : Prop :=
  ∃ a ∈ objs, ∃ id : ℕ, (id, x) ∈ surfaceIds depth s.heap a ∧ r.surface = (id : ℤ)

/-- **C105, guides.** Let a ray from air enter a piece of glass of index `N` through a face across the direction `z`, at an angle `θ` to `z` with
1 + sin² θ ≤ N², and meet next any number of walls along `z` (flat or curved, `walls` of them), always from inside. No light is lost: at each wall the ray is
reflected totally, keeping its component along `z`. -/
theorem C105_guide (ha : IsArgsort argsort) (b : Bench argsort fuel s objs depth sources m)
    (ht : Tracer.Traces k (Tracer.new sources (objs.map (s.component argsort depth)) m limit) f) {walls : ℕ} {rows : ℕ → Row}
    (hrows : ∀ j ≤ walls + 1, rows j ∈ f.frame) (hfol : ∀ j < walls + 1, Follows (rows j) (rows (j + 1))) {x : ℕ → ℕ} {g : IndexModel}
    (hx : ∀ j < walls + 1, EndsOn s objs depth (x j) (rows j) ∧ s.material (x j) = .glass g) (hair : (rows 0).index = 1)
    {z : Vec4} (hz : dot4 z z = 1) {σ : ℝ} (hσ : σ ^ 2 = 1)
    (h0 : surfaceNormal s.heap (x 0) (rows 0).finish = σ • z) (hin : dot4 (rows 0).dir (surfaceNormal s.heap (x 0) (rows 0).finish) < 0)
    (hNA : 1 + Spec.sinTo (rows 0).dir z ^ 2 ≤ g.indexAt (rows 0).wavelength ^ 2)
    (hw : ∀ j, 1 ≤ j → j ≤ walls → dot4 (surfaceNormal s.heap (x j) (rows j).finish) z = 0 ∧
      0 ≤ dot4 (rows j).dir (surfaceNormal s.heap (x j) (rows j).finish)) :
    (∀ j, 1 ≤ j → j ≤ walls + 1 → (rows j).index = g.indexAt (rows 0).wavelength ∧ dot4 (rows j).dir z = dot4 (rows 1).dir z ∧
      0 < dot4 (rows 0).dir z * dot4 (rows j).dir z ∧
      g.indexAt (rows 0).wavelength * Spec.sinTo (rows j).dir z = Spec.sinTo (rows 0).dir z) ∧
    (∀ j, 1 ≤ j → j ≤ walls → ∀ i, (rows (j + 1)).dir i =
      (rows j).dir i - 2 * dot4 (rows j).dir (surfaceNormal s.heap (x j) (rows j).finish) * surfaceNormal s.heap (x j) (rows j).finish i) := by
  have hwl : ∀ j ≤ walls + 1, (rows j).wavelength = (rows 0).wavelength := by
    intro j
    induction j with
    | zero => intro _; rfl
    | succ j ih => intro hj; rw [b.wavelength ha ht (hrows j (by omega)) (hrows (j + 1) hj) (hfol j (by omega)), ih (by omega)]
  have hopt : ∀ j < walls + 1, dot4 (surfaceNormal s.heap (x j) (rows j).finish) (surfaceNormal s.heap (x j) (rows j).finish) = 1 ∧
      Interacts (.glass g) (rows 0).wavelength (surfaceNormal s.heap (x j) (rows j).finish) (rows j).dir (rows j).index (rows (j + 1)).dir (rows (j + 1)).index := by
    intro j hj
    obtain ⟨⟨a, haa, id, hid, hsf⟩, hm⟩ := hx j hj
    obtain ⟨o1, -, o3⟩ := b.optics ha ht (hrows j (by omega)) (hrows (j + 1) (by omega)) (hfol j (by omega)) haa hid hsf
    rw [hm, hwl j (by omega)] at o3
    exact ⟨o1, o3⟩
  have hu : ∀ j ≤ walls + 1, dot4 (rows j).dir (rows j).dir = 1 := fun j hj => b.unit ha ht (hrows j hj)
  set N := g.indexAt (rows 0).wavelength with hN
  have hNp : 0 < N := by
    obtain ⟨⟨a, haa, id, hid, -⟩, hm⟩ := hx 0 (by omega)
    exact b.glass_pos ha ht (hrows 0 (by omega)) haa hid hm
  have hs0 := sinTo_sq (hu 0 (by omega)) hz
  rw [hs0] at hNA
  have hN1 : 1 ≤ N := by
    have := dot_le_one (hu 0 (by omega)) hz
    nlinarith
  have hi0 := (hopt 0 (by omega)).2
  rw [hair] at hi0
  obtain ⟨a1, a2, a3⟩ := guide_enter (hu 0 (by omega)) (hu 1 (by omega)) hz hσ h0 hN1 hin hi0
  have hax : 1 ≤ N ^ 2 * dot4 (rows 1).dir z ^ 2 := by
    rw [← hN] at a3
    linarith
  have hind : ∀ j, 1 ≤ j → j ≤ walls + 1 → (rows j).index = N ∧ dot4 (rows j).dir z = dot4 (rows 1).dir z := by
    intro j h1j
    induction j, h1j using Nat.le_induction with
    | base => exact fun _ => ⟨a1, rfl⟩
    | succ j hj ih =>
      intro hle
      obtain ⟨e1, e2⟩ := ih (by omega)
      obtain ⟨w1, w2⟩ := hw j hj (by omega)
      obtain ⟨o1, o2⟩ := hopt j (by omega)
      rw [e1] at o2
      obtain ⟨c1, c2, -⟩ := guide_wall (hu j (by omega)) o1 hz w1 hNp (by rw [e2]; exact hax) w2 o2
      exact ⟨c1, c2.trans e2⟩
  have hsm : ∀ (q : Vec4) (y : ℝ), dot4 q (y • z) = y * dot4 q z := fun q y => by simp [dot4]; ring
  refine ⟨fun j h1j hj => ?_, fun j h1j hj => ?_⟩
  · obtain ⟨e1, e2⟩ := hind j h1j hj
    refine ⟨e1, e2, ?_, ?_⟩
    · rw [e2]
      rw [h0, hsm] at hin a2
      have h1 := mul_pos_of_neg_of_neg hin a2
      rwa [show σ * dot4 (rows 0).dir z * (σ * dot4 (rows (0 + 1)).dir z) = dot4 (rows 0).dir z * dot4 (rows 1).dir z by
        linear_combination dot4 (rows 0).dir z * dot4 (rows 1).dir z * hσ] at h1
    · have k1 : 0 ≤ Spec.sinTo (rows j).dir z := Real.sqrt_nonneg _
      have k2 : 0 ≤ Spec.sinTo (rows 0).dir z := Real.sqrt_nonneg _
      rw [← sq_eq_sq₀ (mul_nonneg hNp.le k1) k2, mul_pow, sinTo_sq (hu j (by omega)) hz, hs0, e2]
      exact a3
  · obtain ⟨e1, e2⟩ := hind j h1j (by omega)
    obtain ⟨w1, w2⟩ := hw j h1j (by omega)
    obtain ⟨o1, o2⟩ := hopt j (by omega)
    rw [e1] at o2
    exact (guide_wall (hu j (by omega)) o1 hz w1 hNp (by rw [e2]; exact hax) w2 o2).2.2

/-- **C105, guides, the far end.** If the ray then meets from inside a face across `z`, it leaves there into air, at the angle to `z` at which it came. -/
theorem C105_guide_exit (ha : IsArgsort argsort) (b : Bench argsort fuel s objs depth sources m)
    (ht : Tracer.Traces k (Tracer.new sources (objs.map (s.component argsort depth)) m limit) f) {walls : ℕ} {rows : ℕ → Row}
    (hrows : ∀ j ≤ walls + 2, rows j ∈ f.frame) (hfol : ∀ j < walls + 2, Follows (rows j) (rows (j + 1))) {x : ℕ → ℕ} {g : IndexModel}
    (hx : ∀ j < walls + 2, EndsOn s objs depth (x j) (rows j) ∧ s.material (x j) = .glass g) (hair : (rows 0).index = 1)
    {z : Vec4} (hz : dot4 z z = 1) {σ τ : ℝ} (hσ : σ ^ 2 = 1) (hτ : τ ^ 2 = 1)
    (h0 : surfaceNormal s.heap (x 0) (rows 0).finish = σ • z) (hin : dot4 (rows 0).dir (surfaceNormal s.heap (x 0) (rows 0).finish) < 0)
    (hNA : 1 + Spec.sinTo (rows 0).dir z ^ 2 ≤ g.indexAt (rows 0).wavelength ^ 2)
    (hw : ∀ j, 1 ≤ j → j ≤ walls → dot4 (surfaceNormal s.heap (x j) (rows j).finish) z = 0 ∧
      0 ≤ dot4 (rows j).dir (surfaceNormal s.heap (x j) (rows j).finish))
    (h1 : surfaceNormal s.heap (x (walls + 1)) (rows (walls + 1)).finish = τ • z)
    (hout : 0 < dot4 (rows (walls + 1)).dir (surfaceNormal s.heap (x (walls + 1)) (rows (walls + 1)).finish)) :
    (rows (walls + 2)).index = 1 ∧ dot4 (rows (walls + 2)).dir z = dot4 (rows 0).dir z := by
  obtain ⟨hall, -⟩ := C105_guide ha b ht (walls := walls) (fun j hj => hrows j (by omega)) (fun j hj => hfol j (by omega)) (fun j hj => hx j (by omega))
    hair hz hσ h0 hin hNA hw
  obtain ⟨e1, e2, e3, e4⟩ := hall (walls + 1) (by omega) le_rfl
  have hwl : ∀ j ≤ walls + 2, (rows j).wavelength = (rows 0).wavelength := by
    intro j
    induction j with
    | zero => intro _; rfl
    | succ j ih => intro hj; rw [b.wavelength ha ht (hrows j (by omega)) (hrows (j + 1) hj) (hfol j (by omega)), ih (by omega)]
  obtain ⟨⟨a, haa, id, hid, hsf⟩, hm⟩ := hx (walls + 1) (by omega)
  obtain ⟨-, -, o2⟩ := b.optics ha ht (hrows (walls + 1) (by omega)) (hrows (walls + 2) le_rfl) (hfol (walls + 1) (by omega)) haa hid hsf
  rw [hm, hwl (walls + 1) (by omega), e1] at o2
  have hNp := b.glass_pos ha ht (hrows 0 (by omega)) haa hid hm
  have hu : ∀ j ≤ walls + 2, dot4 (rows j).dir (rows j).dir = 1 := fun j hj => b.unit ha ht (hrows j hj)
  have hsm : ∀ (q : Vec4) (y : ℝ), dot4 q (y • z) = y * dot4 q z := fun q y => by simp [dot4]; ring
  have hS0 : dot4 (rows 0).dir z ≠ 0 := by
    intro h
    rw [h] at e3
    simp at e3
  have hS := congrArg (· ^ 2) e4
  simp only [mul_pow] at hS
  rw [sinTo_sq (hu _ (by omega)) hz, sinTo_sq (hu _ (by omega)) hz] at hS
  obtain ⟨c1, c2, c3⟩ := guide_exit (hu (walls + 1) (by omega)) (hu (walls + 2) le_rfl) hz hτ h1 hNp hS hS0 hout o2
  refine ⟨c1, ?_⟩
  -- the signs
  rw [h1, hsm] at hout c2
  rcases sq_eq_sq_iff_eq_or_eq_neg.1 c3 with h | h
  · exact h
  · exfalso
    rw [h] at c2
    have h2 := mul_pos hout c2
    rw [show τ * dot4 (rows (walls + 1)).dir z * (τ * -dot4 (rows 0).dir z) = -(dot4 (rows 0).dir z * dot4 (rows (walls + 1)).dir z) by
      linear_combination -(dot4 (rows (walls + 1)).dir z * dot4 (rows 0).dir z) * hτ] at h2
    linarith

/-! ### Round rods -/

/-- The local point is on the side of the cylinder, away from the tolerance bands of `isclose` around the ends. -/
def Spec.OnSide (ρ lo hi : ℝ) (q : Vec4) : Prop := q 0 ^ 2 + q 1 ^ 2 = ρ ^ 2 ∧ lo ≤ q 2 ∧ q 2 ≤ hi ∧ ¬ isclose (q 2) lo ∧ ¬ isclose (q 2) hi

/-- The local point is on the end of the cylinder where z is largest (`top`) or smallest. -/
def Spec.OnEnd (ρ lo hi : ℝ) (top : Bool) (q : Vec4) : Prop := q 0 ^ 2 + q 1 ^ 2 ≤ ρ ^ 2 ∧ q 2 = if top then hi else lo

theorem rod_normal {o : Obj} (hw : Isometry o.world) (ho : o.objT = o.world⁻¹) {p : Prim} {q : Vec4} {n : Vec4} (h3 : n 3 = 0) (h1 : norm4 n = 1)
    (hn : p.normal (o.world⁻¹ *ᵥ q) = n) : worldNormal o p q = o.nscale • (o.world *ᵥ n) := by
  have e : zeroW n = n := by funext i; fin_cases i <;> simp [zeroW, h3]
  have e2 : normalize n = n := by funext i; simp [normalize, h1]
  rw [worldNormal, ho, hn, hw.zeroW, e, hw.normalize h3, e2]

theorem end_normal {ρ lo hi : ℝ} {top : Bool} {q : Vec4} (hsep : ¬ isclose lo hi) (h : OnEnd ρ lo hi top q) :
    Prim.normal (.cylinder ρ lo hi) q = vector 0 0 (if top then 1 else -1) := by
  obtain ⟨-, h⟩ := h
  cases top
  · simp only [Prim.normal, h, hsep, if_false, Bool.false_eq_true, isclose_self, if_true]
    funext i; fin_cases i <;> simp [normalize, norm4, vector]
  · simp only [Prim.normal, h, isclose_self, if_true]
    funext i; fin_cases i <;> simp [normalize, norm4, vector]

theorem side_normal {ρ lo hi : ℝ} {q : Vec4} (hρ : ρ ≠ 0) (h : OnSide ρ lo hi q) :
    Prim.normal (.cylinder ρ lo hi) q = vector (q 0 / |ρ|) (q 1 / |ρ|) 0 := by
  obtain ⟨h1, -, -, h2, h3⟩ := h
  simp only [Prim.normal, h2, h3, if_false]
  have e : norm4 ![q 0, q 1, 0, 0] = |ρ| := by
    rw [norm4, ← Real.sqrt_sq_eq_abs, ← h1]; simp
  funext i; fin_cases i <;> simp [normalize, e, vector]

/-- what arrives at a circle from inside goes outwards -/
theorem chord_outward {L a b c d : ℝ} (hL : 0 < L) (h : (a - L * c) ^ 2 + (b - L * d) ^ 2 ≤ a ^ 2 + b ^ 2) : 0 ≤ c * a + d * b := by
  have : 0 ≤ L * (2 * (c * a + d * b) - L * (c ^ 2 + d ^ 2)) := by nlinarith
  have h3 := nonneg_of_mul_nonneg_right this hL
  have h4 : 0 ≤ L * (c ^ 2 + d ^ 2) := by positivity
  linarith

set_option maxHeartbeats 1000000 in
/-- **C105, rods.** Let a ray from air enter a round rod of glass of index `N` (a cylinder, moved and turned but not scaled) through one of its ends, at an angle `θ` to the
axis with 1 + sin² θ ≤ N², and meet its side `walls` times. It never leaves through the side: each time it is reflected totally. If it then meets an end
it is the other one, where it leaves into air at the angle to the axis at which it came. -/
theorem C105_rod (ha : IsArgsort argsort) (b : Bench argsort fuel s objs depth sources m)
    (ht : Tracer.Traces k (Tracer.new sources (objs.map (s.component argsort depth)) m limit) f) {walls : ℕ} {rows : ℕ → Row}
    (hrows : ∀ j ≤ walls + 1, rows j ∈ f.frame) (hfol : ∀ j < walls + 1, Follows (rows j) (rows (j + 1))) {x : ℕ} {g : IndexModel}
    (hx : ∀ j < walls + 1, EndsOn s objs depth x (rows j)) (hg : s.material x = .glass g) {ρ lo hi : ℝ}
    (hk : (s.heap.obj x).kind = .prim (.cylinder ρ lo hi)) (hiso : Isometry (s.heap.obj x).world) (hlh : lo < hi)
    (hsep : ¬ isclose lo hi) (hair : (rows 0).index = 1)
    {top : Bool} (h0 : OnEnd ρ lo hi top ((s.heap.obj x).world⁻¹ *ᵥ (rows 0).finish))
    (hin : dot4 (rows 0).dir (surfaceNormal s.heap x (rows 0).finish) < 0)
    (hNA : 1 + Spec.sinTo (rows 0).dir ((s.heap.obj x).world *ᵥ vector 0 0 1) ^ 2 ≤ g.indexAt (rows 0).wavelength ^ 2)
    (hw : ∀ j, 1 ≤ j → j ≤ walls → OnSide ρ lo hi ((s.heap.obj x).world⁻¹ *ᵥ (rows j).finish))
    (hlast : (∃ e, OnEnd ρ lo hi e ((s.heap.obj x).world⁻¹ *ᵥ (rows (walls + 1)).finish)) ∨
      OnSide ρ lo hi ((s.heap.obj x).world⁻¹ *ᵥ (rows (walls + 1)).finish)) :
    (∀ j, 1 ≤ j → j ≤ walls + 1 → (rows j).index = g.indexAt (rows 0).wavelength ∧
      dot4 (rows j).dir ((s.heap.obj x).world *ᵥ vector 0 0 1) = dot4 (rows 1).dir ((s.heap.obj x).world *ᵥ vector 0 0 1)) ∧
    ∀ e, OnEnd ρ lo hi e ((s.heap.obj x).world⁻¹ *ᵥ (rows (walls + 1)).finish) → e = !top ∧
      ∀ r ∈ f.frame, Follows (rows (walls + 1)) r → EndsOn s objs depth x (rows (walls + 1)) → r.index = 1 ∧
        dot4 r.dir ((s.heap.obj x).world *ᵥ vector 0 0 1) = dot4 (rows 0).dir ((s.heap.obj x).world *ᵥ vector 0 0 1) := by
  obtain ⟨a, haa, id, hid, hsf0⟩ := hx 0 (by omega)
  have hρ : ρ ≠ 0 := b.sized a haa x id _ hid hk
  have hinv := reaches_inv argsort empty_inv b.history.reaches
  obtain ⟨hxs, -, -⟩ := surfaceIds_spec hinv depth a (b.exist a haa) _ hid
  have ho := (hinv.synced x hxs).2.1
  set W := (s.heap.obj x).world with hW
  set z := W *ᵥ vector 0 0 1 with hz
  set ν := (s.heap.obj x).nscale with hν
  have hzz : dot4 z z = 1 := by rw [hz, hiso.dot rfl rfl]; simp [dot4, vector]
  -- local coordinates
  set q : ℕ → Vec4 := fun j => W⁻¹ *ᵥ (rows j).finish with hq
  set e : ℕ → Vec4 := fun j => W⁻¹ *ᵥ (rows j).dir with he
  have e3 : ∀ j, e j 3 = 0 := fun j => by rw [← hiso.three (e j), he]; simp only; rw [hiso.mulVec_inv]; rfl
  have hdot : ∀ j (v : Vec4), v 3 = 0 → dot4 (rows j).dir (W *ᵥ v) = dot4 (e j) v := fun j v hv => by
    rw [← hiso.dot (e3 j) hv, he]; simp only; rw [hiso.mulVec_inv]
  have hez : ∀ j, dot4 (rows j).dir z = e j 2 := fun j => by rw [hz, hdot j _ rfl]; simp [dot4, vector]
  have hstep : ∀ j < walls + 1, ∃ L : ℝ, 0 < L ∧ ∀ i, q (j + 1) i = q j i + L * e (j + 1) i := by
    intro j hj
    obtain ⟨L, hL, h, -⟩ := row_piece ha b ht hrows hfol (g := j + 1) (by omega)
    simp only [rayPoints] at h
    refine ⟨L, hL, fun i => ?_⟩
    simp only [hq, he]
    rw [h, mulVec_add, mulVec_smul]; rfl
  -- normals
  have hsurf : ∀ p, surfaceNormal s.heap x p = worldNormal (s.heap.obj x) (.cylinder ρ lo hi) p := fun p => by simp only [surfaceNormal, hk]
  have hendn : ∀ j t, OnEnd ρ lo hi t (q j) → surfaceNormal s.heap x (rows j).finish = (ν * if t then 1 else -1) • z := by
    intro j t h
    have e : vector 0 0 (if t then 1 else -1) = (if t then 1 else -1 : ℝ) • vector 0 0 1 := by
      cases t <;> (funext i; fin_cases i <;> simp [vector])
    have hn := rod_normal hiso ho (n := vector 0 0 (if t then 1 else -1)) rfl (by cases t <;> simp [norm4, vector]) (end_normal hsep h)
    rw [hsurf, hn, e, mulVec_smul, smul_smul]
  have hsiden : ∀ j, OnSide ρ lo hi (q j) → surfaceNormal s.heap x (rows j).finish = ν • (W *ᵥ vector (q j 0 / |ρ|) (q j 1 / |ρ|) 0) := by
    intro j h
    refine (hsurf _).trans (rod_normal hiso ho rfl ?_ (side_normal hρ h))
    have : (q j 0 / |ρ|) ^ 2 + (q j 1 / |ρ|) ^ 2 = 1 := by
      rw [div_pow, div_pow, ← add_div, h.1, sq_abs, div_self (pow_ne_zero 2 hρ)]
    simp [norm4, vector, this]
  have hsq : (ν * if top then 1 else -1) ^ 2 = 1 := by
    obtain ⟨o1, -⟩ := b.optics ha ht (hrows 0 (by omega)) (hrows 1 (by omega)) (hfol 0 (by omega)) haa hid hsf0
    rw [hendn 0 top h0] at o1
    have : ∀ y : ℝ, dot4 (y • z) (y • z) = y ^ 2 * dot4 z z := fun y => by simp [dot4]; ring
    rwa [this, hzz, mul_one] at o1
  -- every end of a row is in the closed cylinder
  have hin_t : ∀ j ≤ walls + 1, q j 0 ^ 2 + q j 1 ^ 2 ≤ ρ ^ 2 ∧ lo ≤ q j 2 ∧ q j 2 ≤ hi := by
    have hE : ∀ {t p}, OnEnd ρ lo hi t p → p 0 ^ 2 + p 1 ^ 2 ≤ ρ ^ 2 ∧ lo ≤ p 2 ∧ p 2 ≤ hi := by
      rintro t p ⟨h1, h2⟩
      refine ⟨h1, ?_, ?_⟩ <;> rw [h2] <;> split <;> linarith
    intro j hj
    rcases Nat.eq_zero_or_pos j with rfl | hpos
    · exact hE h0
    · rcases Nat.lt_or_ge j (walls + 1) with h | h
      · obtain ⟨h1, h2, h3, -⟩ := hw j hpos (by omega)
        exact ⟨h1.le, h2, h3⟩
      · obtain rfl : j = walls + 1 := by omega
        rcases hlast with ⟨t, h⟩ | ⟨h1, h2, h3, -⟩
        · exact hE h
        · exact ⟨h1.le, h2, h3⟩
  -- the first step: the normal points outwards
  obtain ⟨hfirst, -⟩ := C105_guide ha b ht (walls := 0) (rows := rows) (x := fun _ => x) (fun j hj => hrows j (by omega)) (fun j hj => hfol j (by omega))
    (fun j hj => ⟨hx j (by omega), hg⟩) hair hzz hsq (hendn 0 top h0) hin hNA (fun j h1 h2 => by omega)
  obtain ⟨-, -, hsgn, -⟩ := hfirst 1 le_rfl (by omega)
  obtain ⟨L1, hL1, hq1⟩ := hstep 0 (by omega)
  have hsm : ∀ (p : Vec4) (y : ℝ) (v : Vec4), dot4 p (y • v) = y * dot4 p v := fun p y v => by simp [dot4]; ring
  have hin' := hin
  rw [hendn 0 top h0, hsm] at hin'
  rw [hez 1] at hsgn
  have hz1 : q 1 2 = (if top then hi else lo) + L1 * e 1 2 := by
    have := hq1 2
    rwa [show q 0 2 = if top then hi else lo from h0.2] at this
  have hdirz : 0 < (if top then -1 else 1) * e 1 2 := by
    obtain ⟨-, hb1, hb2⟩ := hin_t 1 (by omega)
    have hne : e 1 2 ≠ 0 := by rintro h; rw [h] at hsgn; simp at hsgn
    rw [hz1] at hb1 hb2
    cases top
    · simp only [Bool.false_eq_true, if_false] at hb1 ⊢
      have : 0 ≤ e 1 2 := by
        by_contra h
        have := mul_neg_of_pos_of_neg hL1 (not_le.1 h)
        linarith
      rcases this.lt_or_eq with h | h
      · linarith
      · exact absurd h.symm hne
    · simp only [if_true] at hb2 ⊢
      have : e 1 2 ≤ 0 := by
        by_contra h
        have := mul_pos hL1 (not_le.1 h)
        linarith
      rcases this.lt_or_eq with h | h
      · linarith
      · exact absurd h hne
  have hν1 : ν = 1 := by
    have h2 : ν ^ 2 = 1 := by
      rw [mul_pow] at hsq
      cases top <;> simpa using hsq
    have hpos : 0 < ν := by
      generalize dot4 (rows 0).dir z = u at *
      generalize e 1 2 = v at *
      cases top
      · simp only [Bool.false_eq_true, if_false] at hin' hdirz
        have hv : 0 < v := by linarith
        have hu : 0 < u := by
          by_contra h
          have := mul_nonpos_of_nonpos_of_nonneg (not_lt.1 h) hv.le
          linarith
        nlinarith
      · simp only [if_true] at hin' hdirz
        have hv : v < 0 := by linarith
        have hu : u < 0 := by
          by_contra h
          have := mul_nonpos_of_nonneg_of_nonpos (not_lt.1 h) hv.le
          linarith
        nlinarith
    nlinarith
  -- the walls
  have hwalls : ∀ j, 1 ≤ j → j ≤ walls → dot4 (surfaceNormal s.heap x (rows j).finish) z = 0 ∧
      0 ≤ dot4 (rows j).dir (surfaceNormal s.heap x (rows j).finish) := by
    intro j h1 h2
    obtain ⟨j, rfl⟩ : ∃ i, j = i + 1 := ⟨j - 1, by omega⟩
    rw [hsiden (j + 1) (hw (j + 1) h1 h2), hν1, one_smul]
    refine ⟨by rw [hz, hiso.dot rfl rfl]; simp [dot4, vector], ?_⟩
    rw [hdot (j + 1) _ rfl]
    obtain ⟨L, hL, hst⟩ := hstep j (by omega)
    obtain ⟨hprev, -⟩ := hin_t j (by omega)
    have hcur := (hw (j + 1) h1 h2).1
    change q (j + 1) 0 ^ 2 + q (j + 1) 1 ^ 2 = ρ ^ 2 at hcur
    have k0 : q j 0 = q (j + 1) 0 - L * e (j + 1) 0 := by linarith [hst 0]
    have k1 : q j 1 = q (j + 1) 1 - L * e (j + 1) 1 := by linarith [hst 1]
    rw [k0, k1, ← hcur] at hprev
    have hge := chord_outward hL hprev
    have : dot4 (e (j + 1)) (vector (q (j + 1) 0 / |ρ|) (q (j + 1) 1 / |ρ|) 0) = (e (j + 1) 0 * q (j + 1) 0 + e (j + 1) 1 * q (j + 1) 1) / |ρ| := by
      simp [dot4, vector]; ring
    rw [this]
    positivity
  obtain ⟨hall, -⟩ := C105_guide ha b ht (rows := rows) (x := fun _ => x) hrows hfol (fun j hj => ⟨hx j hj, hg⟩) hair hzz hsq (hendn 0 top h0) hin hNA hwalls
  refine ⟨fun j h1 h2 => ⟨(hall j h1 h2).1, (hall j h1 h2).2.1⟩, fun t hend => ?_⟩
  obtain ⟨-, hlastz, -, -⟩ := hall (walls + 1) (by omega) le_rfl
  rw [hez, hez] at hlastz
  obtain ⟨L, hL, hst⟩ := hstep walls (by omega)
  obtain ⟨-, hb1, hb2⟩ := hin_t walls (by omega)
  have h2 := hst 2
  rw [hlastz] at h2
  change OnEnd ρ lo hi t (q (walls + 1)) at hend
  have ht2 := hend.2
  have het : t = !top := by
    cases top <;> cases t
    · exfalso
      simp only [Bool.false_eq_true, if_false] at ht2 hdirz
      have := mul_pos hL (show 0 < e 1 2 by linarith)
      linarith
    · rfl
    · rfl
    · exfalso
      simp only [if_true] at ht2 hdirz
      have := mul_pos hL (show 0 < -e 1 2 by linarith)
      linarith
  refine ⟨het, fun r hr hf hx' => ?_⟩
  set rows' : ℕ → Row := fun j => if j ≤ walls + 1 then rows j else r with hr'
  have er : ∀ j ≤ walls + 1, rows' j = rows j := fun j hj => by simp [hr', hj]
  have er2 : rows' (walls + 2) = r := by simp [hr']
  have hτ : (ν * if t then 1 else -1) ^ 2 = 1 := by rw [hν1]; cases t <;> norm_num
  have := C105_guide_exit ha b ht (walls := walls) (rows := rows') (x := fun _ => x) (g := g) (z := z) (σ := ν * if top then 1 else -1)
    (τ := ν * if t then 1 else -1) ?_ ?_ ?_ (by rw [er 0 (by omega)]; exact hair) hzz hsq hτ (by rw [er 0 (by omega)]; exact hendn 0 top h0)
    (by rw [er 0 (by omega)]; exact hin) (by rw [er 0 (by omega)]; exact hNA) (fun j h1 h2 => by rw [er j (by omega)]; exact hwalls j h1 h2)
    (by rw [er _ le_rfl]; exact hendn _ t hend) ?_
  · rw [er2, er 0 (by omega)] at this
    exact this
  · intro j hj
    rcases Nat.lt_or_ge j (walls + 2) with h | h
    · rw [er j (by omega)]; exact hrows j (by omega)
    · obtain rfl : j = walls + 2 := by omega
      rw [er2]; exact hr
  · intro j hj
    rcases Nat.lt_or_ge j (walls + 1) with h | h
    · rw [er j (by omega), er (j + 1) (by omega)]; exact hfol j h
    · obtain rfl : j = walls + 1 := by omega
      rw [er _ le_rfl, er2]; exact hf
  · intro j hj
    rw [er j (by omega)]
    rcases Nat.lt_or_ge j (walls + 1) with h | h
    · exact ⟨hx j h, hg⟩
    · obtain rfl : j = walls + 1 := by omega
      exact ⟨hx', hg⟩
  · rw [er _ le_rfl, hendn _ t hend, hsm, hez, hlastz, hν1, het]
    cases top
    · simp at hdirz ⊢; exact hdirz
    · simp at hdirz ⊢; exact hdirz

/-- **C105, the limit is sharp.** If 1 + sin² θ exceeds N² (and N ≥ 1), a ray whose path is in a plane with the axis and the normal of the wall leaves the guide at
the first wall it meets from inside. -/
theorem C105_leaks (ha : IsArgsort argsort) (b : Bench argsort fuel s objs depth sources m)
    (ht : Tracer.Traces k (Tracer.new sources (objs.map (s.component argsort depth)) m limit) f) {r r' r'' : Row} (hr : r ∈ f.frame)
    (hr' : r' ∈ f.frame) (hr'' : r'' ∈ f.frame) (hf : Follows r r') (hf' : Follows r' r'') {x x' : ℕ} {g : IndexModel}
    (hx : EndsOn s objs depth x r) (hg : s.material x = .glass g) (hx' : EndsOn s objs depth x' r') (hg' : s.material x' = .glass g) (hair : r.index = 1)
    {z : Vec4} (hz : dot4 z z = 1) {σ : ℝ} (hσ : σ ^ 2 = 1) (h0 : surfaceNormal s.heap x r.finish = σ • z)
    (hin : dot4 r.dir (surfaceNormal s.heap x r.finish) < 0) (hN : 1 ≤ g.indexAt r.wavelength)
    (hNA : g.indexAt r.wavelength ^ 2 < 1 + Spec.sinTo r.dir z ^ 2) (hwall : dot4 (surfaceNormal s.heap x' r'.finish) z = 0)
    (hout : 0 < dot4 r'.dir (surfaceNormal s.heap x' r'.finish))
    (hmer : ∃ α β : ℝ, ∀ i, r'.dir i = α * z i + β * surfaceNormal s.heap x' r'.finish i) : r''.index = 1 := by
  obtain ⟨a, haa, id, hid, hs⟩ := hx
  obtain ⟨a', haa', id', hid', hs'⟩ := hx'
  obtain ⟨-, -, o⟩ := b.optics ha ht hr hr' hf haa hid hs
  obtain ⟨n1, -, o'⟩ := b.optics ha ht hr' hr'' hf' haa' hid' hs'
  rw [hg, hair] at o
  rw [hg', b.wavelength ha ht hr hr' hf] at o'
  obtain ⟨a1, a2, a3⟩ := guide_enter (b.unit ha ht hr) (b.unit ha ht hr') hz hσ h0 hN hin o
  rw [a1] at o'
  have hu := b.unit ha ht hr'
  set n := surfaceNormal s.heap x' r'.finish
  obtain ⟨α, β, hm⟩ := hmer
  have hzn : dot4 z n = 0 := by rw [dot4_symm]; exact hwall
  have hα : dot4 r'.dir z = α := by rw [dot4_symm, dot4_lin z z n α β hm, hz, hzn]; ring
  have hβ : dot4 r'.dir n = β := by rw [dot4_symm, dot4_lin n z n α β hm, n1, hwall]; ring
  have hab : α ^ 2 + β ^ 2 = 1 := by
    rw [← hu, dot4_lin r'.dir z n α β hm, hα, hβ]; ring
  have hs2 := sinTo_sq hu n1
  rw [hβ] at hs2
  rw [sinTo_sq (b.unit ha ht hr) hz, ← a3, hα] at hNA
  simp only [Interacts] at o'
  rw [if_pos hout] at o'
  rcases o' with ⟨-, -, -, -, -, -, h⟩ | ⟨hle, -⟩
  · exact h
  · exfalso
    have h0 : 0 ≤ Spec.sinTo r'.dir n := Real.sqrt_nonneg _
    have : (g.indexAt r.wavelength * Spec.sinTo r'.dir n) ^ 2 < 1 := by
      rw [mul_pow, hs2]
      rw [show 1 - β ^ 2 = α ^ 2 by linarith]
      nlinarith
    nlinarith

end

/-! ### Example: a rod of glass of index 4/3 and radius 1 from z = -1 to z = 1, inside an absorbing sphere -/

theorem rod_hits {y z dy dz a b : ℝ} (hdy : 1e-8 < dy ^ 2) (hdz : 1e-8 < |dz|) (hab : a < b) (h : ∀ t, (|y + t * dy| ≤ 1 ∧ |z + t * dz| ≤ 1) ↔ (a ≤ t ∧ t ≤ b)) :
    sort2 ((Prim.cylinder 1 (-1) 1).intersect (planeRay y z dy dz)) = ((a : EReal), (b : EReal)) := by
  have hc := C09_cylinder_partial 1 (-1) 1 (by norm_num) (planeRay y z dy dz) (by
    right; simp only [planeRay, vector, Matrix.cons_val]; rw [abs_of_nonneg (by nlinarith [sq_nonneg dy])]; nlinarith) (by right; simpa [planeRay, vector] using hdz)
  dsimp only at hc
  obtain ⟨h1, h2, -⟩ := hc
  have hi : ∀ t : ℝ, ((cylinderIntersect 1 (-1) 1 (planeRay y z dy dz)).1 ≤ t ∧ (t : EReal) ≤ (cylinderIntersect 1 (-1) 1 (planeRay y z dy dz)).2) ↔ (a ≤ t ∧ t ≤ b) := by
    intro t
    rw [h1, ← h, abs_le, abs_le]
    simp only [Ray.at, planeRay, point, vector, Matrix.cons_val, mul_zero, add_zero]
    constructor
    · rintro ⟨k1, k2, k3⟩
      exact ⟨abs_le.1 (abs_le_one_iff_mul_self_le_one.2 (by nlinarith)), k2, k3⟩
    · rintro ⟨k1, k2, k3⟩
      have := abs_le_one_iff_mul_self_le_one.1 (abs_le.2 k1)
      exact ⟨by nlinarith, k2, k3⟩
  show sort2 (cylinderIntersect 1 (-1) 1 (planeRay y z dy dz)) = _
  generalize cylinderIntersect 1 (-1) 1 (planeRay y z dy dz) = H at *
  obtain ⟨H1, H2⟩ := H
  simp only at hi h2
  obtain ⟨a1, a2⟩ := (hi a).2 ⟨le_rfl, hab.le⟩
  obtain ⟨b1, b2⟩ := (hi b).2 ⟨hab.le, le_rfl⟩
  have e1 : H1 = a := by
    refine le_antisymm a1 (not_lt.1 fun hlt => ?_)
    obtain ⟨t, t1, t2⟩ := EReal.lt_iff_exists_real_btwn.1 hlt
    have := (hi t).1 ⟨t1.le, t2.le.trans a2⟩
    exact absurd this.1 (not_le.2 (EReal.coe_lt_coe_iff.1 t2))
  have e2 : H2 = b := by
    refine le_antisymm (not_lt.1 fun hlt => ?_) b2
    obtain ⟨t, t1, t2⟩ := EReal.lt_iff_exists_real_btwn.1 hlt
    have := (hi t).1 ⟨b1.trans t1.le, t2.le⟩
    exact absurd this.2 (not_le.2 (EReal.coe_lt_coe_iff.1 t1))
  rw [e1, e2]
  have hle : (a : EReal) ≤ (b : EReal) := EReal.coe_le_coe_iff.2 hab.le
  simp [sort2, min_eq_left hle, max_eq_right hle]

/-- a sphere of radius 10 around the rod -/
noncomputable def rodBox (m : Material) : Scene := pair (.sphere 10) (.cylinder 1 (-1) 1) (fun a => if a = 0 then .absorber else m)

theorem rodBox_surfaces (m : Material) : surfaceIds 1 (rodBox m).heap 0 = [(0, 0)] ∧ surfaceIds 1 (rodBox m).heap 1 = [(1, 1)] := by
  obtain ⟨⟨k0, -, i0, -⟩, ⟨k1, -, i1, -⟩, -⟩ := pair_obj (.sphere 10) (.cylinder 1 (-1) 1) (fun a => if a = 0 then Material.absorber else m)
  constructor
  · rw [surfaceIds]; simp only [rodBox, k0, i0]
  · rw [surfaceIds]; simp only [rodBox, k1, i1]

/-- the nearest hit, on the rod or on the sphere around it -/
theorem rodBox_nearest (argsort : List EReal → List ℕ) (m : Material) {y z dy dz K d a b : ℝ} (hd : dy ^ 2 + dz ^ 2 = 1) (hK : 0 ≤ K)
    (h2 : K ^ 2 = (y * dy + z * dz) ^ 2 - (y ^ 2 + z ^ 2) + 10 ^ 2) (hd0 : 0 < d)
    (hdy : 1e-8 < dy ^ 2) (hdz : 1e-8 < |dz|) (hab : a < b) (h : ∀ t, (|y + t * dy| ≤ 1 ∧ |z + t * dz| ≤ 1) ↔ (a ≤ t ∧ t ≤ b))
    (hA : -(y * dy + z * dz) - K ≤ 0) (hB : d ≤ -(y * dy + z * dz) + K) (hC : a ≤ 0 ∨ d ≤ a) (hD : b ≤ 0 ∨ d ≤ b) :
    (d = -(y * dy + z * dz) + K → Nearest ([0, 1].map ((rodBox m).component argsort 1)) (planeRay y z dy dz) d 0) ∧
    (d < -(y * dy + z * dz) + K → (d = a ∨ d = b) →
      Nearest ([0, 1].map ((rodBox m).component argsort 1)) (planeRay y z dy dz) d 1) := by
  have le : ∀ {a : ℝ}, (a ≤ 0 ∨ d ≤ a) → 0 < (a : EReal) → (d : EReal) ≤ (a : EReal) := by
    intro a h hp
    have : 0 < a := by exact_mod_cast hp
    exact EReal.coe_le_coe_iff.2 (h.resolve_left (not_le.2 this))
  obtain ⟨c1, c2⟩ := pair_nearest argsort _ _ (fun a => if a = 0 then Material.absorber else m) (planeRay y z dy dz) (unit_sphere_hits hd hK h2)
    (rod_hits hdy hdz hab h) hd0 (le (Or.inl hA)) (le (Or.inr hB)) (le hC) (le hD)
  refine ⟨fun h => c1 (Or.inr (by rw [h])), fun h h' => c2 ?_ ?_ ?_⟩
  · rw [ne_eq, EReal.coe_eq_coe_iff]; intro e; linarith
  · rw [ne_eq, EReal.coe_eq_coe_iff]; intro e; linarith
  · rcases h' with h' | h'
    · left; rw [h']
    · right; rw [h']

theorem rodBox_world (m : Material) : ((rodBox m).heap.obj 1).world = 1 := by simp [rodBox, pair, newPrim, Heap.alloc, Heap.empty]

theorem rodBox_normal (m : Material) {p n : Vec4} (h3 : n 3 = 0) (h1 : norm4 n = 1) (h : Prim.normal (.cylinder 1 (-1) 1) p = n) :
    surfaceNormal (rodBox m).heap 1 p = n := by
  obtain ⟨-, ⟨k1, t1, -, s1⟩, -⟩ := pair_obj (.sphere 10) (.cylinder 1 (-1) 1) (fun a => if a = 0 then Material.absorber else m)
  simp only [surfaceNormal, rodBox, k1, worldNormal, t1, s1, one_smul, Matrix.transpose_one, Matrix.one_mulVec, h]
  have e : zeroW n = n := by funext i; fin_cases i <;> simp [zeroW, h3]
  rw [e]
  funext i
  simp [normalize, h1]

theorem rodBox_bench (argsort : List EReal → List ℕ) {m : Material} (hm : ∀ g, m = .glass g → 0 < g.indexAt 0.633) {y z dy dz : ℝ} (hd : dy ^ 2 + dz ^ 2 = 1) :
    Bench argsort 1 (rodBox m) [0, 1] 1 [fun _ => [plateCol y z dy dz 1 0]] 1 where
  history := ReachesBy.placed argsort (.step (.newPrim _) (.step (.newPrim _) (.refl _) trivial (fun _ _ h => by cases h) rfl) trivial (fun _ _ h => by cases h) rfl)
  exist a h := by
    rw [rodBox, (pair_obj _ _ _).2.2]
    simp at h; omega
  distinct := by simp [rodBox_surfaces]
  sized a h x id p hx hk := by
    obtain ⟨⟨k0, -⟩, ⟨k1, -⟩, -⟩ := pair_obj (.sphere 10) (.cylinder 1 (-1) 1) (fun a => if a = 0 then Material.absorber else m)
    simp only [List.mem_cons, List.not_mem_nil, or_false] at h
    rcases h with rfl | rfl
    · rw [(rodBox_surfaces m).1] at hx
      simp only [List.mem_singleton, Prod.mk.injEq] at hx
      obtain ⟨-, rfl⟩ := hx
      rw [rodBox, k0] at hk
      cases hk; show (10 : ℝ) ≠ 0; norm_num
    · rw [(rodBox_surfaces m).2] at hx
      simp only [List.mem_singleton, Prod.mk.injEq] at hx
      obtain ⟨-, rfl⟩ := hx
      rw [rodBox, k1] at hk
      cases hk; show (1 : ℝ) ≠ 0; norm_num
  emits f hf c hc := by
    simp only [List.mem_singleton] at hf
    subst hf
    simp only [List.mem_singleton] at hc
    subst hc
    exact ⟨by simp [plateCol], rfl, rfl, by simp [plateCol, planeRay, norm4, vector, hd]⟩
  positive f hf c hc := by
    simp only [List.mem_singleton] at hf
    subst hf
    simp only [List.mem_singleton] at hc
    subst hc
    refine ⟨by simp [plateCol], fun a _ x id g _ hg => ?_⟩
    simp only [rodBox, pair] at hg
    split at hg
    · cases hg
    · exact hm g hg

/-- a ray in the plane x = 0 that meets the rod -/
theorem rodBox_step {argsort : List EReal → List ℕ} {m : Material} {c0 : Col} {limit : ℤ} {y z dy dz i d y' z' dy' dz' i' : ℝ} {g : ℕ}
    (hj : Journey (Tracer.new [fun _ => [c0]] ([0, 1].map ((rodBox m).component argsort 1)) 1 limit) c0 g (plateCol y z dy dz i g))
    (hd : dy ^ 2 + dz ^ 2 = 1) (hn : Nearest ([0, 1].map ((rodBox m).component argsort 1)) (planeRay y z dy dz) d 1) (hy : y + d * dy = y') (hz : z + d * dz = z')
    (hm : { m.trace (surfaceNormal (rodBox m).heap 1) (plateCol y' z' dy dz i g) with generation := (g : ℝ) + 1 } = plateCol y' z' dy' dz' i' (g + 1)) :
    Journey (Tracer.new [fun _ => [c0]] ([0, 1].map ((rodBox m).component argsort 1)) 1 limit) c0 (g + 1)
      (plateCol (y' + 1e-6 * dy') (z' + 1e-6 * dz') dy' dz' i' (g + 1)) := by
  have h := hj.next (not_extinct_of_unit (by simp [plateCol, planeRay, norm4, vector, hd])) hn
    (f := fun c => ((rodBox m).material 1).trace (surfaceNormal (rodBox m).heap 1) c)
    (by simp [Tracer.new, Scene.component, rodBox_surfaces])
  rw [moved_plateCol, hy, hz] at h
  have e : (rodBox m).material 1 = m := by simp [rodBox, pair]
  simp only [e] at h
  rw [hm, moved_plateCol] at h
  exact h

/-- a column of a journey and its nearest hit give a row -/
theorem rodBox_row {argsort : List EReal → List ℕ} {m : Material} {y0 z0 dy0 dz0 y z dy dz i d : ℝ} {g k : ℕ} {t' : Tracer} {sf : ℤ}
    (ha : IsArgsort argsort) (b : Bench argsort 1 (rodBox m) [0, 1] 1 [fun _ => [plateCol y0 z0 dy0 dz0 1 0]] 1)
    (h : Tracer.Traces k (Tracer.new [fun _ => [plateCol y0 z0 dy0 dz0 1 0]] ([0, 1].map ((rodBox m).component argsort 1)) 1 4) t')
    (hj : Journey (Tracer.new [fun _ => [plateCol y0 z0 dy0 dz0 1 0]] ([0, 1].map ((rodBox m).component argsort 1)) 1 4) (plateCol y0 z0 dy0 dz0 1 0) g
      (plateCol y z dy dz i g))
    (hd : dy ^ 2 + dz ^ 2 = 1) (hn : Nearest ([0, 1].map ((rodBox m).component argsort 1)) (planeRay y z dy dz) d sf) (hg : g < 4) :
    ∃ r ∈ t'.frame, r.id = 0 ∧ r.generation = g ∧ r.surface = sf ∧ r.index = i ∧ r.wavelength = 0.633 ∧ r.dir = vector 0 dy dz ∧
      r.finish = point 0 (y + d * dy) (z + d * dz) := by
  obtain ⟨r, hr⟩ := segment_exists (plateCol y z dy dz i g) d sf
  refine ⟨r, (trace_iff (b.ok ha 4) h r).2 ⟨0, g, fun _ => ?_, _, _, _, _, ⟨plateCol y0 z0 dy0 dz0 1 0, rfl, by simp [plateCol]⟩, hj,
    not_extinct_of_unit (by simp [plateCol, planeRay, norm4, vector, hd]), hn, hr⟩, hr.id, hr.generation, hr.surface, hr.index, hr.wavelength, ?_, ?_⟩
  · show (g : ℤ) < 4
    exact_mod_cast hg
  · have e : √(dy ^ 2 + dz ^ 2) = 1 := by rw [hd, Real.sqrt_one]
    funext i
    fin_cases i <;> simp only [Row.dir, vector, hr.tilt] <;> simp [plateCol, planeRay, vector, e]
  · funext i
    fin_cases i <;> simp only [Row.finish, point, hr.stop] <;> simp [plateCol, planeRay, vector, point]


theorem glassN_plateCol {N : ℝ} {nf : Vec4 → Vec4} {y z dy dz n dy' dz' n' : ℝ} {g : ℕ}
    (h : (refract (vector 0 dy dz) (nf (point 0 y z)) n N 1).2.1 = vector 0 dy' dz' ∧ (refract (vector 0 dy dz) (nf (point 0 y z)) n N 1).2.2 = n') :
    { (Material.glass (.basic N)).trace nf (plateCol y z dy dz n g) with generation := (g : ℝ) + 1 } = plateCol y z dy' dz' n' (g + 1) := by
  simp only [Material.trace, plateCol, planeRay, IndexModel.indexAt, h.1, h.2]
  push_cast
  rfl

/-- the value of `refract` where it reflects totally -/
theorem reflect_value {v n w : Vec4} {n1 n2 ng far : ℝ} (hv : dot4 v v = 1) (hn : dot4 n n = 1) (h1 : 0 < n1) (h2 : 0 < n2) (hg : 0 < ng)
    (hfar : far = if 0 < dot4 v n then ng else n2) (hsin : far ≤ n1 * Spec.sinTo v n) (hw : ∀ i, w i = v i - 2 * dot4 v n * n i) :
    (refract v n n1 n2 ng).2.1 = w ∧ (refract v n n1 n2 ng).2.2 = n1 := by
  have hv0 : v ≠ 0 := by rintro rfl; simp [dot4] at hv
  have hnv : norm4 v = 1 := norm4_eq_one.2 hv
  have a := (C23_total_internal_reflection v n n1 n2 ng hv0 (norm4_eq_one.2 hn) h1 h2 hg).1
  have ef : Spec.farIndex v n n2 ng = far := by rw [hfar]; rfl
  simp only [hnv, div_one, ef, mul_one] at a
  obtain ⟨a1, a2⟩ := a hsin
  exact ⟨funext fun i => by rw [a1, hw], a2⟩

theorem rodBox_side (m : Material) {z : ℝ} (hz : |z| < 0.9) : surfaceNormal (rodBox m).heap 1 (point 0 1 z) = vector 0 1 0 := by
  obtain ⟨h1, h2⟩ := abs_lt.1 hz
  refine rodBox_normal m rfl (by simp [norm4, vector]) ?_
  rw [side_normal one_ne_zero]
  · simp [point]
  · refine ⟨by simp [point], by simp [point]; linarith, by simp [point]; linarith, ?_, ?_⟩
    all_goals
      simp only [isclose, point, Matrix.cons_val, not_le]
      rw [lt_abs]
      norm_num
    · left; linarith
    · right; linarith

theorem rodBox_end (m : Material) {y : ℝ} (hy : |y| ≤ 1) (top : Bool) :
    surfaceNormal (rodBox m).heap 1 (point 0 y (if top then 1 else -1)) = vector 0 0 (if top then 1 else -1) := by
  refine rodBox_normal m rfl (by cases top <;> simp [norm4, vector]) (end_normal ?_ ⟨?_, rfl⟩)
  · simp only [isclose]; norm_num
  · have := (sq_le_one_iff_abs_le_one y).2 hy
    simpa [point] using this

theorem rodBox_ends (m : Material) {r : Row} (h : r.surface = 1) : EndsOn (rodBox m) [0, 1] 1 1 r :=
  ⟨1, by simp, 1, by rw [(rodBox_surfaces m).2]; simp, h⟩

set_option maxHeartbeats 1000000 in
/-- a ray enters the rod in the middle of an end at the sine 0.8, meets the side once at (0, 1, 1/3), leaves by the other end at (0, 0.5, 1) and is absorbed -/
theorem rodBox_rows (ha : IsArgsort argsort) : ∃ (k : ℕ) (t' : Tracer) (r : ℕ → Row),
    Tracer.Traces k (Tracer.new [fun _ => [plateCol (-0.8) (-1.6) 0.8 0.6 1 0]] ([0, 1].map ((rodBox (.glass (.basic (4 / 3)))).component argsort 1)) 1 4) t' ∧
    (∀ j ≤ 3, r j ∈ t'.frame) ∧ (∀ j < 3, Follows (r j) (r (j + 1))) ∧ (∀ j < 3, (r j).surface = 1) ∧ (r 0).index = 1 ∧ (r 0).wavelength = 0.633 ∧
    (r 0).dir = vector 0 0.8 0.6 ∧ (r 1).dir = vector 0 0.6 0.8 ∧ (r 2).dir = vector 0 (-0.6) 0.8 ∧ (r 3).dir = vector 0 (-0.8) 0.6 ∧
    (r 0).finish = point 0 0 (-1) ∧ (r 1).finish = point 0 1 (1 / 3) ∧ (r 2).finish = point 0 0.5 1 := by
  set m : Material := .glass (.basic (4 / 3)) with hm
  have b : Bench argsort 1 (rodBox m) [0, 1] 1 [fun _ => [plateCol (-0.8) (-1.6) 0.8 0.6 1 0]] 1 :=
    rodBox_bench argsort (fun g hg => by rw [hm] at hg; cases hg; simp [IndexModel.indexAt]) (by norm_num)
  have ok := b.ok ha 4
  obtain ⟨k, t', h, -⟩ := C26_terminates (Tracer.new [fun _ => [plateCol (-0.8) (-1.6) 0.8 0.6 1 0]] ([0, 1].map ((rodBox m).component argsort 1)) 1 4)
    (by simp [Tracer.new]) (by simp [Tracer.new]) (fun s hs c hc => (ok.emits s hs c hc).1)
  have n0 : Nearest ([0, 1].map ((rodBox m).component argsort 1)) (planeRay (-0.8) (-1.6) (0.8) (0.6)) (1) 1 := by
    have hK1 : (9.9 : ℝ) < √99.36 := by rw [Real.lt_sqrt (by norm_num)]; norm_num
    have hK2 : √99.36 < (10 : ℝ) := by rw [Real.sqrt_lt' (by norm_num)]; norm_num
    refine (rodBox_nearest argsort m (K := √99.36) (a := 1) (b := 2.25) (by norm_num) (by positivity)
      (by rw [Real.sq_sqrt (by norm_num)]; norm_num) (by norm_num at hK1 ⊢; try linarith) (by norm_num) (by norm_num) (by norm_num)
      (fun t => by rw [abs_le, abs_le]; constructor <;> (intro h; refine ⟨?_, ?_⟩ <;> norm_num at h ⊢ <;> (try constructor) <;> linarith [h.1, h.2]))
      (by norm_num at hK1 ⊢; linarith) (by norm_num at hK1 ⊢; try linarith) (Or.inr (by norm_num)) (Or.inr (by norm_num))).2 (by norm_num at hK1 ⊢; linarith) (Or.inl (by norm_num))
  have j1 := rodBox_step (limit := 4) (Journey.start (t := Tracer.new [fun _ => [plateCol (-0.8) (-1.6) 0.8 0.6 1 0]] ([0, 1].map ((rodBox m).component argsort 1)) 1 4)
    (c0 := plateCol (-0.8) (-1.6) 0.8 0.6 1 0)) (by norm_num) n0 (y' := 0) (z' := -1) (dy' := 0.6) (dz' := 0.8) (i' := 4 / 3) (by norm_num) (by norm_num) (by
      apply glassN_plateCol
      rw [show surfaceNormal (rodBox m).heap 1 (point 0 0 (-1)) = vector 0 0 (-1) by simpa using rodBox_end m (y := 0) (by norm_num) false]
      apply refract_value
      · simp [dot4, vector]; norm_num
      · simp [dot4, vector]
      · norm_num
      · norm_num
      · norm_num
      · rw [if_neg]; simp [dot4, vector]; norm_num
      · simp [dot4, vector]; norm_num
      · rw [one_mul, Spec.sinTo, Real.sqrt_lt' (by norm_num)]
        simp [dot4, vector]; norm_num
      · intro i; fin_cases i <;> simp [dot4, vector] <;> norm_num
      · simp [dot4, vector]; try norm_num
      · simp [dot4, vector]; try norm_num)
  have n1 : Nearest ([0, 1].map ((rodBox m).component argsort 1)) (planeRay (0 + 1e-6 * 0.6) (-1 + 1e-6 * 0.8) (0.6) (0.8)) (5 / 3 - 1e-6) 1 := by
    have hK1 : (9.9 : ℝ) < √99.64 := by rw [Real.lt_sqrt (by norm_num)]; norm_num
    have hK2 : √99.64 < (10 : ℝ) := by rw [Real.sqrt_lt' (by norm_num)]; norm_num
    refine (rodBox_nearest argsort m (K := √99.64) (a := -1e-6) (b := 5 / 3 - 1e-6) (by norm_num) (by positivity)
      (by rw [Real.sq_sqrt (by norm_num)]; norm_num) (by norm_num at hK1 ⊢; try linarith) (by norm_num) (by norm_num) (by norm_num)
      (fun t => by rw [abs_le, abs_le]; constructor <;> (intro h; refine ⟨?_, ?_⟩ <;> norm_num at h ⊢ <;> (try constructor) <;> linarith [h.1, h.2]))
      (by norm_num at hK1 ⊢; linarith) (by norm_num at hK1 ⊢; try linarith) (Or.inl (by norm_num)) (Or.inr (by norm_num))).2 (by norm_num at hK1 ⊢; linarith) (Or.inr (by norm_num))
  have j2 := rodBox_step j1 (by norm_num) n1 (y' := 1) (z' := 1 / 3) (dy' := -0.6) (dz' := 0.8) (i' := 4 / 3) (by norm_num) (by norm_num) (by
      apply glassN_plateCol
      rw [rodBox_side m (by rw [abs_lt]; norm_num)]
      apply reflect_value (far := 1)
      · simp [dot4, vector]; norm_num
      · simp [dot4, vector]
      · norm_num
      · norm_num
      · norm_num
      · rw [if_pos]; simp [dot4, vector]; try norm_num
      · rw [show (1 : ℝ) = 4 / 3 * (3 / 4) by norm_num]
        refine mul_le_mul_of_nonneg_left ?_ (by norm_num)
        rw [Spec.sinTo]
        refine Real.le_sqrt_of_sq_le ?_
        simp [dot4, vector]; norm_num
      · intro i; fin_cases i <;> simp [dot4, vector] <;> norm_num)
  have n2 : Nearest ([0, 1].map ((rodBox m).component argsort 1)) (planeRay (1 + 1e-6 * (-0.6)) (1 / 3 + 1e-6 * 0.8) (-0.6) (0.8)) (5 / 6 - 1e-6) 1 := by
    have hK1 : (9.9 : ℝ) < √99 := by rw [Real.lt_sqrt (by norm_num)]; norm_num
    have hK2 : √99 < (10 : ℝ) := by rw [Real.sqrt_lt' (by norm_num)]; norm_num
    refine (rodBox_nearest argsort m (K := √99) (a := -1e-6) (b := 5 / 6 - 1e-6) (by norm_num) (by positivity)
      (by rw [Real.sq_sqrt (by norm_num)]; norm_num) (by norm_num at hK1 ⊢; try linarith) (by norm_num) (by norm_num) (by norm_num)
      (fun t => by rw [abs_le, abs_le]; constructor <;> (intro h; refine ⟨?_, ?_⟩ <;> norm_num at h ⊢ <;> (try constructor) <;> linarith [h.1, h.2]))
      (by norm_num at hK1 ⊢; linarith) (by norm_num at hK1 ⊢; try linarith) (Or.inl (by norm_num)) (Or.inr (by norm_num))).2 (by norm_num at hK1 ⊢; linarith) (Or.inr (by norm_num))
  have j3 := rodBox_step j2 (by norm_num) n2 (y' := 0.5) (z' := 1) (dy' := -0.8) (dz' := 0.6) (i' := 1) (by norm_num) (by norm_num) (by
      apply glassN_plateCol
      rw [show surfaceNormal (rodBox m).heap 1 (point 0 0.5 1) = vector 0 0 1 by simpa using rodBox_end m (y := 0.5) (by rw [abs_le]; norm_num) true]
      apply refract_value
      · simp [dot4, vector]; norm_num
      · simp [dot4, vector]
      · norm_num
      · norm_num
      · norm_num
      · rw [if_pos]; simp [dot4, vector]; try norm_num
      · simp [dot4, vector]; norm_num
      · rw [show (1 : ℝ) = 4 / 3 * (3 / 4) by norm_num]
        refine mul_lt_mul_of_pos_left ?_ (by norm_num)
        rw [Spec.sinTo, Real.sqrt_lt' (by norm_num)]
        simp [dot4, vector]; norm_num
      · intro i; fin_cases i <;> simp [dot4, vector] <;> norm_num
      · simp [dot4, vector]; try norm_num
      · simp [dot4, vector]; try norm_num)
  have n3 : Nearest ([0, 1].map ((rodBox m).component argsort 1)) (planeRay (0.5 + 1e-6 * (-0.8)) (1 + 1e-6 * 0.6) (-0.8) (0.6)) (-((0.5 + 1e-6 * (-0.8)) * (-0.8) + (1 + 1e-6 * 0.6) * 0.6) + √98.79) 0 := by
    have hK1 : (9.9 : ℝ) < √98.79 := by rw [Real.lt_sqrt (by norm_num)]; norm_num
    have hK2 : √98.79 < (10 : ℝ) := by rw [Real.sqrt_lt' (by norm_num)]; norm_num
    refine (rodBox_nearest argsort m (K := √98.79) (a := -0.625 - 1e-6) (b := -1e-6) (by norm_num) (by positivity)
      (by rw [Real.sq_sqrt (by norm_num)]; norm_num) (by norm_num at hK1 ⊢; try linarith) (by norm_num) (by norm_num) (by norm_num)
      (fun t => by rw [abs_le, abs_le]; constructor <;> (intro h; refine ⟨?_, ?_⟩ <;> norm_num at h ⊢ <;> (try constructor) <;> linarith [h.1, h.2]))
      (by norm_num at hK1 ⊢; linarith) (by norm_num at hK1 ⊢; try linarith) (Or.inl (by norm_num)) (Or.inl (by norm_num))).1 (by ring)
  obtain ⟨r0, hr0, a1, a2, a3, a4, a5, a6, a7⟩ := rodBox_row ha b h .start (by norm_num) n0 (by norm_num)
  obtain ⟨r1, hr1, b1, b2, b3, b4, -, b6, b7⟩ := rodBox_row ha b h j1 (by norm_num) n1 (by norm_num)
  obtain ⟨r2, hr2, c1, c2, c3, c4, -, c6, c7⟩ := rodBox_row ha b h j2 (by norm_num) n2 (by norm_num)
  obtain ⟨r3, hr3, d1, d2, d3, d4, -, d6, d7⟩ := rodBox_row ha b h j3 (by norm_num) n3 (by norm_num)
  refine ⟨k, t', fun j => if j = 0 then r0 else if j = 1 then r1 else if j = 2 then r2 else r3, h, ?_, ?_, ?_, a4, a5, a6, b6, c6, d6, ?_, ?_, ?_⟩
  · intro j hj; interval_cases j <;> simpa
  · intro j hj
    interval_cases j
    · exact ⟨by simp [a1, b1], by simp [a2, b2]⟩
    · exact ⟨by simp [b1, c1], by simp [b2, c2]; norm_num⟩
    · exact ⟨by simp [c1, d1], by simp [c2, d2]; norm_num⟩
  · intro j hj; interval_cases j <;> simpa
  · show r0.finish = _; rw [a7]; norm_num
  · show r1.finish = _; rw [b7]; norm_num
  · show r2.finish = _; rw [c7]; norm_num

/-- non-vacuity of `C105_rod` (with one wall): the ray stays inside at the wall and comes out of the other end -/
example (ha : IsArgsort argsort) : ∃ (k : ℕ) (t' : Tracer) (r : ℕ → Row),
    Tracer.Traces k (Tracer.new [fun _ => [plateCol (-0.8) (-1.6) 0.8 0.6 1 0]] ([0, 1].map ((rodBox (.glass (.basic (4 / 3)))).component argsort 1)) 1 4) t' ∧
    (r 2).dir = vector 0 (-0.6) 0.8 ∧ (r 2).index = 4 / 3 ∧ (r 3).index = 1 ∧ dot4 (r 3).dir (vector 0 0 1) = 0.6 := by
  obtain ⟨k, t', r, h, hr, hf, hs, hi, hw, d0, d1, d2, d3, p0, p1, p2⟩ := rodBox_rows ha
  have b : Bench argsort 1 (rodBox (.glass (.basic (4 / 3)))) [0, 1] 1 [fun _ => [plateCol (-0.8) (-1.6) 0.8 0.6 1 0]] 1 :=
    rodBox_bench argsort (fun g hg => by cases hg; simp [IndexModel.indexAt]) (by norm_num)
  have hsin : Spec.sinTo (r 0).dir (vector 0 0 1) = 0.8 := by
    rw [d0, Spec.sinTo, Real.sqrt_eq_iff_mul_self_eq (by simp [dot4, vector]; norm_num) (by norm_num)]
    simp [dot4, vector]; norm_num
  obtain ⟨e1, e2⟩ := C105_rod ha b h (walls := 1) (rows := r) (x := 1) (g := .basic (4 / 3)) (ρ := 1) (lo := -1) (hi := 1) (top := false)
    (fun j hj => hr j (by omega)) (fun j hj => hf j (by omega)) (fun j hj => rodBox_ends _ (hs j (by omega))) (by simp [rodBox, pair])
    (pair_obj _ _ _).2.1.1 (by rw [rodBox_world]; exact ⟨row_one, fun v _ => by rw [one_mulVec]⟩) (by norm_num) (by simp only [isclose]; norm_num) hi
    (by rw [rodBox_world, inv_one, one_mulVec, p0]; exact ⟨by simp [point], by simp [point]⟩)
    (by rw [p0, show surfaceNormal (rodBox (.glass (.basic (4 / 3)))).heap 1 (point 0 0 (-1)) = vector 0 0 (-1) by simpa using rodBox_end _ (y := 0) (by norm_num) false, d0]
        simp [dot4, vector]; norm_num)
    (by rw [rodBox_world, one_mulVec, hsin]; simp [IndexModel.indexAt]; norm_num)
    (fun j h1 h2 => by
      obtain rfl : j = 1 := by omega
      rw [rodBox_world, inv_one, one_mulVec, p1]
      refine ⟨by simp [point], by simp [point]; norm_num, by simp [point]; norm_num, ?_, ?_⟩ <;> simp only [isclose, point, Matrix.cons_val] <;> norm_num [abs_le])
    (Or.inl ⟨true, by rw [rodBox_world, inv_one, one_mulVec, p2]; exact ⟨by simp [point]; norm_num, by simp [point]⟩⟩)
  obtain ⟨-, e3⟩ := e2 true (by rw [rodBox_world, inv_one, one_mulVec, p2]; exact ⟨by simp [point]; norm_num, by simp [point]⟩)
  obtain ⟨f1, f2⟩ := e3 (r 3) (hr 3 (by omega)) (hf 2 (by omega)) (rodBox_ends _ (hs 2 (by omega)))
  refine ⟨k, t', r, h, d2, by rw [(e1 2 (by omega) (by omega)).1]; rfl, f1, ?_⟩
  rw [rodBox_world, one_mulVec] at f2
  rw [f2, d0]
  simp [dot4, vector]

/-- non-vacuity of `C105_guide` and `C105_guide_exit`: the same path, with the normals of its three surfaces -/
example (ha : IsArgsort argsort) : ∃ (k : ℕ) (t' : Tracer) (r : ℕ → Row),
    Tracer.Traces k (Tracer.new [fun _ => [plateCol (-0.8) (-1.6) 0.8 0.6 1 0]] ([0, 1].map ((rodBox (.glass (.basic (4 / 3)))).component argsort 1)) 1 4) t' ∧
    (∀ j, 1 ≤ j → j ≤ 2 → (r j).index = 4 / 3 ∧ 4 / 3 * Spec.sinTo (r j).dir (vector 0 0 1) = 0.8) ∧ (r 3).index = 1 ∧ dot4 (r 3).dir (vector 0 0 1) = 0.6 := by
  obtain ⟨k, t', r, h, hr, hf, hs, hi, hw, d0, d1, d2, d3, p0, p1, p2⟩ := rodBox_rows ha
  have b : Bench argsort 1 (rodBox (.glass (.basic (4 / 3)))) [0, 1] 1 [fun _ => [plateCol (-0.8) (-1.6) 0.8 0.6 1 0]] 1 :=
    rodBox_bench argsort (fun g hg => by cases hg; simp [IndexModel.indexAt]) (by norm_num)
  have hsin : Spec.sinTo (r 0).dir (vector 0 0 1) = 0.8 := by
    rw [d0, Spec.sinTo, Real.sqrt_eq_iff_mul_self_eq (by simp [dot4, vector]; norm_num) (by norm_num)]
    simp [dot4, vector]; norm_num
  have hE : surfaceNormal (rodBox (.glass (.basic (4 / 3)))).heap 1 (point 0 0 (-1)) = (-1 : ℝ) • vector 0 0 1 := by
    rw [show surfaceNormal (rodBox (.glass (.basic (4 / 3)))).heap 1 (point 0 0 (-1)) = vector 0 0 (-1) by simpa using rodBox_end _ (y := 0) (by norm_num) false]
    funext i; fin_cases i <;> simp [vector]
  have hE' : surfaceNormal (rodBox (.glass (.basic (4 / 3)))).heap 1 (point 0 0.5 1) = (1 : ℝ) • vector 0 0 1 := by
    rw [one_smul]
    simpa using rodBox_end (.glass (.basic (4 / 3))) (y := 0.5) (by rw [abs_le]; norm_num) true
  have hwall : ∀ j, 1 ≤ j → j ≤ 1 → dot4 (surfaceNormal (rodBox (.glass (.basic (4 / 3)))).heap 1 (r j).finish) (vector 0 0 1) = 0 ∧
      0 ≤ dot4 (r j).dir (surfaceNormal (rodBox (.glass (.basic (4 / 3)))).heap 1 (r j).finish) := fun j h1 h2 => by
    obtain rfl : j = 1 := by omega
    rw [p1, d1, rodBox_side _ (by rw [abs_lt]; norm_num)]
    constructor <;> simp [dot4, vector]
    norm_num
  have hin : dot4 (r 0).dir (surfaceNormal (rodBox (.glass (.basic (4 / 3)))).heap 1 (r 0).finish) < 0 := by
    rw [p0, hE, d0]; simp [dot4, vector]; norm_num
  have hNA : 1 + Spec.sinTo (r 0).dir (vector 0 0 1) ^ 2 ≤ (IndexModel.basic (4 / 3)).indexAt (r 0).wavelength ^ 2 := by
    rw [hsin]; simp [IndexModel.indexAt]; norm_num
  obtain ⟨e1, -⟩ := C105_guide ha b h (walls := 1) (rows := r) (x := fun _ => 1) (g := .basic (4 / 3)) (z := vector 0 0 1) (σ := -1)
    (fun j hj => hr j (by omega)) (fun j hj => hf j (by omega)) (fun j hj => ⟨rodBox_ends _ (hs j (by omega)), by simp [rodBox, pair]⟩) hi
    (by simp [dot4, vector]) (by norm_num) (by rw [p0, hE]) hin hNA hwall
  obtain ⟨f1, f2⟩ := C105_guide_exit ha b h (walls := 1) (rows := r) (x := fun _ => 1) (g := .basic (4 / 3)) (z := vector 0 0 1) (σ := -1) (τ := 1)
    hr hf (fun j hj => ⟨rodBox_ends _ (hs j hj), by simp [rodBox, pair]⟩) hi
    (by simp [dot4, vector]) (by norm_num) (by norm_num) (by rw [p0, hE]) hin hNA hwall (by rw [p2, hE']) (by rw [p2, hE', d2]; simp [dot4, vector]; norm_num)
  refine ⟨k, t', r, h, fun j h1 h2 => ?_, f1, ?_⟩
  · obtain ⟨g1, -, -, g4⟩ := e1 j h1 h2
    rw [hsin] at g4
    exact ⟨g1, g4⟩
  · rw [f2, d0]; simp [dot4, vector]

set_option maxHeartbeats 1000000 in
/-- non-vacuity of `C105_leaks`: at the sine 12/13 into a rod of index 87/65 the ray goes out through the side at (0, 1, 0.05) -/
example (ha : IsArgsort argsort) : ∃ (k : ℕ) (t' : Tracer) (r r' r'' : Row),
    Tracer.Traces k (Tracer.new [fun _ => [plateCol (-(12 / 13)) (-1 - 5 / 13) (12 / 13) (5 / 13) 1 0]] ([0, 1].map ((rodBox (.glass (.basic (87 / 65)))).component argsort 1)) 1 4) t' ∧
    r ∈ t'.frame ∧ r' ∈ t'.frame ∧ r'' ∈ t'.frame ∧ r'.index = 87 / 65 ∧ r'.surface = 1 ∧ r'.finish = point 0 1 0.05 ∧ r''.index = 1 := by
  set m : Material := .glass (.basic (87 / 65)) with hm
  have b : Bench argsort 1 (rodBox m) [0, 1] 1 [fun _ => [plateCol (-(12 / 13)) (-1 - 5 / 13) (12 / 13) (5 / 13) 1 0]] 1 :=
    rodBox_bench argsort (fun g hg => by rw [hm] at hg; cases hg; simp [IndexModel.indexAt]) (by norm_num)
  have ok := b.ok ha 4
  obtain ⟨k, t', h, -⟩ := C26_terminates (Tracer.new [fun _ => [plateCol (-(12 / 13)) (-1 - 5 / 13) (12 / 13) (5 / 13) 1 0]] ([0, 1].map ((rodBox m).component argsort 1)) 1 4)
    (by simp [Tracer.new]) (by simp [Tracer.new]) (fun s hs c hc => (ok.emits s hs c hc).1)
  have hE : surfaceNormal (rodBox m).heap 1 (point 0 0 (-1)) = vector 0 0 (-1) := by simpa using rodBox_end m (y := 0) (by norm_num) false
  have hS : surfaceNormal (rodBox m).heap 1 (point 0 1 0.05) = vector 0 1 0 := rodBox_side m (by rw [abs_lt]; norm_num)
  have n0 : Nearest ([0, 1].map ((rodBox m).component argsort 1)) (planeRay (-(12 / 13)) (-1 - 5 / 13) (12 / 13) (5 / 13)) (1) 1 := by
    have hK1 : (9.9 : ℝ) < √(16756 / 169) := by rw [Real.lt_sqrt (by norm_num)]; norm_num
    have hK2 : √(16756 / 169) < (10 : ℝ) := by rw [Real.sqrt_lt' (by norm_num)]; norm_num
    refine (rodBox_nearest argsort m (K := √(16756 / 169)) (a := 1) (b := 25 / 12) (by norm_num) (by positivity)
      (by rw [Real.sq_sqrt (by norm_num)]; norm_num) (by norm_num at hK1 ⊢; try linarith) (by norm_num) (by norm_num) (by norm_num)
      (fun t => by rw [abs_le, abs_le]; constructor <;> (intro h; refine ⟨?_, ?_⟩ <;> norm_num at h ⊢ <;> (try constructor) <;> linarith [h.1, h.2]))
      (by norm_num at hK1 ⊢; linarith) (by norm_num at hK1 ⊢; try linarith) (Or.inr (by norm_num)) (Or.inr (by norm_num))).2 (by norm_num at hK1 ⊢; linarith) (Or.inl (by norm_num))
  have j1 := rodBox_step (limit := 4) (Journey.start (t := Tracer.new [fun _ => [plateCol (-(12 / 13)) (-1 - 5 / 13) (12 / 13) (5 / 13) 1 0]] ([0, 1].map ((rodBox m).component argsort 1)) 1 4)
    (c0 := plateCol (-(12 / 13)) (-1 - 5 / 13) (12 / 13) (5 / 13) 1 0)) (by norm_num) n0 (y' := 0) (z' := -1) (dy' := 20 / 29) (dz' := 21 / 29) (i' := 87 / 65)
    (by norm_num) (by norm_num) (by
      apply glassN_plateCol
      rw [hE]
      apply refract_value
      · simp [dot4, vector]; norm_num
      · simp [dot4, vector]
      · norm_num
      · norm_num
      · norm_num
      · rw [if_neg]; simp [dot4, vector]; norm_num
      · simp [dot4, vector]; norm_num
      · rw [one_mul, Spec.sinTo, Real.sqrt_lt' (by norm_num)]
        simp [dot4, vector]; norm_num
      · intro i; fin_cases i <;> simp [dot4, vector] <;> norm_num
      · simp [dot4, vector]; try norm_num
      · simp [dot4, vector]; try norm_num)
  have n1 : Nearest ([0, 1].map ((rodBox m).component argsort 1)) (planeRay (0 + 1e-6 * (20 / 29)) (-1 + 1e-6 * (21 / 29)) (20 / 29) (21 / 29)) (1.45 - 1e-6) 1 := by
    have hK1 : (9.9 : ℝ) < √(83700 / 841) := by rw [Real.lt_sqrt (by norm_num)]; norm_num
    have hK2 : √(83700 / 841) < (10 : ℝ) := by rw [Real.sqrt_lt' (by norm_num)]; norm_num
    refine (rodBox_nearest argsort m (K := √(83700 / 841)) (a := -1e-6) (b := 1.45 - 1e-6) (by norm_num) (by positivity)
      (by rw [Real.sq_sqrt (by norm_num)]; norm_num) (by norm_num at hK1 ⊢; try linarith) (by norm_num) (by norm_num) (by norm_num)
      (fun t => by rw [abs_le, abs_le]; constructor <;> (intro h; refine ⟨?_, ?_⟩ <;> norm_num at h ⊢ <;> (try constructor) <;> linarith [h.1, h.2]))
      (by norm_num at hK1 ⊢; linarith) (by norm_num at hK1 ⊢; try linarith) (Or.inl (by norm_num)) (Or.inr (by norm_num))).2 (by norm_num at hK1 ⊢; linarith) (Or.inr (by norm_num))
  have j2 := rodBox_step j1 (by norm_num) n1 (y' := 1) (z' := 0.05) (dy' := 16 / 65) (dz' := 63 / 65) (i' := 1) (by norm_num) (by norm_num) (by
      apply glassN_plateCol
      rw [hS]
      apply refract_value
      · simp [dot4, vector]; norm_num
      · simp [dot4, vector]
      · norm_num
      · norm_num
      · norm_num
      · rw [if_pos]; simp [dot4, vector]
      · simp [dot4, vector]; norm_num
      · rw [show (1 : ℝ) = 87 / 65 * (65 / 87) by norm_num]
        refine mul_lt_mul_of_pos_left ?_ (by norm_num)
        rw [Spec.sinTo, Real.sqrt_lt' (by norm_num)]
        simp [dot4, vector]; norm_num
      · intro i; fin_cases i <;> simp [dot4, vector] <;> norm_num
      · simp [dot4, vector]
      · simp [dot4, vector]; try norm_num)
  have n2 : Nearest ([0, 1].map ((rodBox m).component argsort 1)) (planeRay (1 + 1e-6 * (16 / 65)) (0.05 + 1e-6 * (63 / 65)) (16 / 65) (63 / 65)) (-((1 + 1e-6 * (16 / 65)) * (16 / 65) + (0.05 + 1e-6 * (63 / 65)) * (63 / 65)) + √(10465779 / 105625)) 0 := by
    have hK1 : (9.9 : ℝ) < √(10465779 / 105625) := by rw [Real.lt_sqrt (by norm_num)]; norm_num
    have hK2 : √(10465779 / 105625) < (10 : ℝ) := by rw [Real.sqrt_lt' (by norm_num)]; norm_num
    refine (rodBox_nearest argsort m (K := √(10465779 / 105625)) (a := -(1.05 * 65 / 63) - 1e-6) (b := -1e-6) (by norm_num) (by positivity)
      (by rw [Real.sq_sqrt (by norm_num)]; norm_num) (by norm_num at hK1 ⊢; try linarith) (by norm_num) (by norm_num) (by norm_num)
      (fun t => by rw [abs_le, abs_le]; constructor <;> (intro h; refine ⟨?_, ?_⟩ <;> norm_num at h ⊢ <;> (try constructor) <;> linarith [h.1, h.2]))
      (by norm_num at hK1 ⊢; linarith) (by norm_num at hK1 ⊢; try linarith) (Or.inl (by norm_num)) (Or.inl (by norm_num))).1 (by ring)
  obtain ⟨r0, hr0, a1, a2, a3, a4, a5, a6, a7⟩ := rodBox_row ha b h .start (by norm_num) n0 (by norm_num)
  obtain ⟨r1, hr1, b1, b2, b3, b4, -, b6, b7⟩ := rodBox_row ha b h j1 (by norm_num) n1 (by norm_num)
  obtain ⟨r2, hr2, c1, c2, c3, c4, -, c6, c7⟩ := rodBox_row ha b h j2 (by norm_num) n2 (by norm_num)
  have p0 : r0.finish = point 0 0 (-1) := by rw [a7]; norm_num
  have p1 : r1.finish = point 0 1 0.05 := by rw [b7]; norm_num
  refine ⟨k, t', r0, r1, r2, h, hr0, hr1, hr2, b4, b3, p1, ?_⟩
  have hsin : Spec.sinTo r0.dir (vector 0 0 1) = 12 / 13 := by
    rw [a6, Spec.sinTo, Real.sqrt_eq_iff_mul_self_eq (by simp [dot4, vector]; norm_num) (by norm_num)]
    simp [dot4, vector]; norm_num
  refine C105_leaks ha b h hr0 hr1 hr2 ⟨by rw [a1, b1], by rw [a2, b2]; push_cast; ring⟩ ⟨by rw [b1, c1], by rw [b2, c2]; push_cast; ring⟩ (rodBox_ends _ a3)
    (g := .basic (87 / 65)) (by simp [rodBox, pair, hm]) (rodBox_ends _ b3) (by simp [rodBox, pair, hm]) a4 (z := vector 0 0 1) (by simp [dot4, vector]) (σ := -1) (by norm_num)
    ?_ ?_ ?_ ?_ ?_ ?_ ⟨21 / 29, 20 / 29, fun i => ?_⟩
  · rw [p0, hE]; funext i; fin_cases i <;> simp [vector]
  · rw [p0, hE, a6]; simp [dot4, vector]
  · simp [IndexModel.indexAt]; norm_num
  · rw [hsin]; simp [IndexModel.indexAt]; norm_num
  · rw [p1, hS]; simp [dot4, vector]
  · rw [p1, hS, b6]; simp [dot4, vector]
  · rw [p1, hS, b6]; fin_cases i <;> simp [vector]

end PyRayT
