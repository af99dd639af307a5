import Verif.Proofs.RoundingWorld

/-!
# Property C112: what rounding does to the hits of planes, and to surfaces that have been moved
-/

namespace PyRayT

open Classical

variable {u : ℝ}

theorem abs_facing_le {L : ℝ} {M : Mat4} (hM : Spec.Placed L M) {v : Vec4} {A : ℝ} (h : norm4 (cut v) ≤ A) (i : Fin 4) : |Spec.facing M v i| ≤ 1.0001 * A :=
  (abs_le_norm4 _ i).trans ((hM.facing_le v).trans (mul_le_mul_of_nonneg_left h (by norm_num)))

theorem cut_vsub (v w : Vec4) : cut (v - w) = cut v - cut w := by
  funext i; fin_cases i <;> simp [cut, vector]

/-- the computed ray in the coordinates of the object -/
theorem LocalR.near (hu : 0 ≤ u) (hu6 : u ≤ 1e-6) {L width length : ℝ} {M : Mat4} {ray loc : Ray} (hs : Spec.Scene L ray) (hM : Spec.Placed L M) (hl : LocalR u M ray loc)
    (hw : |width| ≤ 2 * L) (hl2 : |length| ≤ 2 * L) :
    (∀ i : Fin 3, |loc.o i.castSucc - Spec.seen M ray.o i.castSucc| ≤ 8.05 * u * L) ∧ (∀ i : Fin 3, |loc.d i.castSucc - Spec.facing M ray.d i.castSucc| ≤ 4.01 * u) ∧
    PlaneNear (2.01 * L) width length loc := by
  have hL := hs.one_le
  have h1 := hl.1.point_err hu hu6 hM hL (hs.start'.trans (by linarith)) hs.isPoint
  have h2 := hl.2.dir_err hu hu6 hM (by linarith) ((unit_le hs.length).trans (by norm_num)) hs.isVector
  refine ⟨h1, h2, by linarith, fun i => ?_, (hl.2.unit hu hu6 hM (by linarith) hs.length hs.isVector).trans (by norm_num), by linarith, by linarith⟩
  have h3 := (abs_le_norm4 (Spec.seen M ray.o) i.castSucc).trans (hM.seen_le (by linarith) hs.start')
  have h4 := abs_add_le (loc.o i.castSucc - Spec.seen M ray.o i.castSucc) (Spec.seen M ray.o i.castSucc)
  rw [sub_add_cancel] at h4
  have h5 := h1 i
  have h6 : u * L ≤ 1e-6 * L := mul_le_mul_of_nonneg_right hu6 (by linarith)
  norm_num at h3 h5 h6 ⊢
  linarith

/-- the place of the computed hit and the computed place in the coordinates of the object -/
theorem seen_advance (hu : 0 ≤ u) (hu6 : u ≤ 1e-6) {L t τ : ℝ} {M : Mat4} {ray loc : Ray} {p : Vec4} (hs : Spec.Scene L ray) (hM : Spec.Placed L M)
    (h1 : ∀ i : Fin 3, |loc.o i.castSucc - Spec.seen M ray.o i.castSucc| ≤ 8.05 * u * L) (h2 : ∀ i : Fin 3, |loc.d i.castSucc - Spec.facing M ray.d i.castSucc| ≤ 4.01 * u)
    (hp : AdvanceR u ray t p) (ht : |t| ≤ τ * L) (hτ : τ ≤ 8.05) (i : Fin 3) :
    |Spec.seen M p i.castSucc - (loc.o i.castSucc + loc.d i.castSucc * t)| ≤ (8.05 + 4.01 * τ + 1.0001 * (2.0002 * τ + 1.0001)) * u * L := by
  have hL := hs.one_le
  have hL0 : 0 < L := by linarith
  have hτ0 : 0 ≤ τ := by
    by_contra hn
    push Not at hn
    have := mul_neg_of_neg_of_pos hn hL0
    linarith [abs_nonneg t]
  have hd := unit_le hs.length
  have hT : norm4 (cut (t • ray.d)) ≤ (1.0001 * τ) * L := by
    rw [cut_smul, norm4_smul]
    have := mul_le_mul ht hd (norm4_nonneg _) (by positivity)
    linarith
  have hB : norm4 (cut (ray.o + t • ray.d)) ≤ (1 + 1.0001 * τ) * L := by
    rw [cut_add]
    have := norm4_add_le (cut ray.o) (cut (t • ray.d))
    have := hs.start'
    linarith
  have e1 := hp.err_scene hu hu6 hL hT (by positivity) hB (by norm_num; linarith) (by norm_num; linarith)
  rw [← cut_vsub] at e1
  have e2 := abs_facing_le hM e1 i.castSucc
  rw [Spec.facing_sub] at e2
  have e3 : Spec.facing M p i.castSucc - Spec.facing M (ray.o + t • ray.d) i.castSucc = Spec.seen M p i.castSucc - (Spec.seen M ray.o i.castSucc + t * Spec.facing M ray.d i.castSucc) := by
    have := congrFun (Spec.seen_step M ray.o ray.d t) i.castSucc
    simp only [Pi.add_apply, Pi.smul_apply, smul_eq_mul] at this
    rw [← this, Spec.seen_eq, Spec.seen_eq]
    simp only [Pi.add_apply]; ring
  rw [Pi.sub_apply, e3] at e2
  have e4 : |(loc.d i.castSucc - Spec.facing M ray.d i.castSucc) * t| ≤ 4.01 * u * (τ * L) := by
    rw [abs_mul]; exact mul_le_mul (h2 i) ht (abs_nonneg _) (by positivity)
  have a1 := abs_le.1 (h1 i)
  have a2 := abs_le.1 e2
  have a3 := abs_le.1 e4
  rw [abs_le]
  constructor <;> linarith

/-- **C112 (1).** Hits of a plane that has been moved and turned: the place to which the tracer advances the ray lies in the plane up to `60 u L`, and within the rectangle up to `70 u L`
(and up to `1e-7 L`, since the code takes slopes below `1e-8` for zero). -/
theorem C112_plane (hu : 0 ≤ u) (hu6 : u ≤ 1e-6) {L width length t : ℝ} {M : Mat4} {ray loc : Ray} {hits : EReal × EReal} {p : Vec4} (hs : Spec.Scene L ray) (hM : Spec.Placed L M)
    (hw : |width| ≤ 2 * L) (hl2 : |length| ≤ 2 * L) (hl : LocalR u M ray loc) (h : PlaneR u width length loc hits) (ht : hits.1 = (t : EReal) ∨ hits.2 = (t : EReal)) (hp : AdvanceR u ray t p) :
    |Spec.seen M p 2| ≤ 60 * u * L ∧ |Spec.seen M p 0| ≤ |width| / 2 + 70 * u * L + 1e-7 * L ∧ |Spec.seen M p 1| ≤ |length| / 2 + 70 * u * L + 1e-7 * L ∧ |t| ≤ 8.04 * L := by
  obtain ⟨h1, h2, hn⟩ := hl.near hu hu6 hs hM hw hl2
  obtain ⟨-, -, -, e2, e3, x1, x2, y1, y2⟩ := h.sound hu hu6 hn ht
  have hL := hs.one_le
  have huL : 0 ≤ u * L := mul_nonneg hu (by linarith)
  have ht2 : |t| ≤ 8.04 * L := e3.trans (by linarith)
  have key := seen_advance hu hu6 hs hM h1 h2 hp ht2 (by norm_num)
  have k0 := key 0
  have k1 := key 1
  have k2 := key 2
  simp only [Fin.castSucc_zero, Fin.castSucc_one] at k0 k1
  replace k2 : |Spec.seen M p 2 - (loc.o 2 + loc.d 2 * t)| ≤ _ := k2
  have flat : ∀ {o d dim : ℝ}, (isclose0 d → |o| ≤ |dim| / 2 + 1.001 * u * (2.01 * L)) → (¬ isclose0 d → |o + d * t| ≤ |dim| / 2 + 5.1 * u * (2.01 * L)) →
      |o + d * t| ≤ |dim| / 2 + 10.3 * u * L + 1e-7 * L := by
    intro o d dim c1 c2
    by_cases hz : isclose0 d
    · have c3 : |d * t| ≤ 1e-8 * (8.04 * L) := by rw [abs_mul]; exact mul_le_mul hz ht2 (abs_nonneg _) (by norm_num)
      have c4 := abs_add_le o (d * t)
      have c5 := c1 hz
      have c6 : (1e-8 : ℝ) * (8.04 * L) ≤ 1e-7 * L := by norm_num; linarith
      linarith
    · have c5 := c2 hz
      norm_num
      linarith
  have f0 := flat x1 x2
  have f1 := flat y1 y2
  have tri : ∀ {a b k c : ℝ}, |a - b| ≤ k → |b| ≤ c → |a| ≤ k + c := by
    intro a b k c h1 h2
    have := abs_add_le (a - b) b
    rw [sub_add_cancel] at this
    linarith
  refine ⟨(tri k2 e2).trans ?_, (tri k0 f0).trans ?_, (tri k1 f1).trans ?_, ht2⟩ <;> norm_num <;> linarith

/-- **C112 (2).** Why the tracer moves rays off planes, too: if a ray leaves the place `p` where it has hit the plane in the direction `w` and is moved off by `η`, and the component of `w` across the
plane exceeds `80 u L / η`, then no hit of the plane is computed that lies ahead. -/
theorem C112_plane_offset (hu : 0 ≤ u) (hu6 : u ≤ 1e-6) {L width length η : ℝ} {M : Mat4} {loc : Ray} {hits : EReal × EReal} {p w p' : Vec4} (hs : Spec.Scene L ⟨p, w⟩) (hM : Spec.Placed L M)
    (hw : |width| ≤ 2 * L) (hl2 : |length| ≤ 2 * L) (hp : |Spec.seen M p 2| ≤ 60 * u * L) (hη : 0 ≤ η) (hη2 : η ≤ 0.001) (hp' : AdvanceR u ⟨p, w⟩ η p') (hp3 : p' 3 = 1)
    (hl : LocalR u M ⟨p', w⟩ loc) (h : PlaneR u width length loc hits) (hc : 80 * u * L < η * |Spec.facing M w 2|) :
    hits = (⊤, ⊤) ∨ ∃ t : ℝ, hits = ((t : EReal), (t : EReal)) ∧ t < 0 := by
  have hL := hs.one_le
  have hL0 : 0 < L := by linarith
  have huL : 0 ≤ u * L := mul_nonneg hu hL0.le
  have huL6 : u * L ≤ 1e-6 * L := mul_le_mul_of_nonneg_right hu6 hL0.le
  have huuL : u ≤ u * L := by nlinarith
  have hd := unit_le hs.length
  have hT : norm4 (cut (η • (⟨p, w⟩ : Ray).d)) ≤ 0.0011 * L := by
    show norm4 (cut (η • w)) ≤ _
    rw [cut_smul, norm4_smul, abs_of_nonneg hη]
    have := mul_le_mul hη2 hd (norm4_nonneg _) (by norm_num)
    norm_num at this ⊢
    linarith
  have hB : norm4 (cut ((⟨p, w⟩ : Ray).o + η • (⟨p, w⟩ : Ray).d)) ≤ 1.0011 * L := by
    rw [cut_add]
    have := norm4_add_le (cut (⟨p, w⟩ : Ray).o) (cut (η • (⟨p, w⟩ : Ray).d))
    have := hs.start'
    norm_num at hT ⊢
    linarith
  have e1 := hp'.err_scene hu hu6 hL hT (by norm_num) hB (by norm_num) (by norm_num)
  replace e1 : norm4 (cut p' - cut (p + η • w)) ≤ (0.0011 + 1.0011 + 0.0001) * u * L := e1
  replace hB : norm4 (cut (p + η • w)) ≤ 1.0011 * L := hB
  have hA : norm4 (cut p') ≤ 1.01 * L := by
    have := norm4_add_le (cut p' - cut (p + η • w)) (cut (p + η • w))
    rw [sub_add_cancel] at this
    norm_num at e1 hB huL6 ⊢
    linarith
  have a1 := hl.1.point_err hu hu6 hM hL hA hp3 2
  have a2 := hl.2.dir_err hu hu6 hM hL0.le (hd.trans (by norm_num)) hs.isVector 2
  replace a1 : |loc.o 2 - Spec.seen M p' 2| ≤ 8.05 * u * L := a1
  replace a2 : |loc.d 2 - Spec.facing M w 2| ≤ 4.01 * u := a2
  rw [← cut_vsub] at e1
  have a3 := abs_facing_le hM e1 2
  have e3 : Spec.facing M (p' - (p + η • w)) 2 = Spec.seen M p' 2 - (Spec.seen M p 2 + η * Spec.facing M w 2) := by
    have := congrFun (Spec.seen_step M p w η) 2
    simp only [Pi.add_apply, Pi.smul_apply, smul_eq_mul] at this
    rw [← this, Spec.facing_sub, Spec.seen_eq, Spec.seen_eq]
    simp only [Pi.add_apply, Pi.sub_apply]; ring
  rw [e3] at a3
  set m := Spec.facing M w 2 with hm
  -- the computed place and the computed direction are on the same side
  have b1 : |loc.o 2 - η * m| ≤ 70 * u * L := by
    have c1 := abs_le.1 a1
    have c2 := abs_le.1 a3
    have c3 := abs_le.1 hp
    norm_num at c1 c2 ⊢
    exact abs_le.2 ⟨by linarith, by linarith⟩
  have b2 : 80000 * (u * L) < |m| := by
    have : η * |m| ≤ 0.001 * |m| := mul_le_mul_of_nonneg_right hη2 (abs_nonneg _)
    norm_num at this
    linarith
  have hmle : |m| ≤ 1.01 := (abs_facing_le hM hd 2).trans (by norm_num)
  have hh := h.hhits
  by_cases hz : isclose0 (loc.d 2)
  · simp only [if_pos hz, ite_self] at hh
    exact Or.inl hh
  simp only [if_neg hz] at hh
  by_cases hin : (h.t : EReal) ≥ max (sort2 h.bx).1 (sort2 h.byy).1 ∧ (h.t : EReal) ≤ min (sort2 h.bx).2 (sort2 h.byy).2
  swap
  · rw [if_neg hin] at hh
    exact Or.inl hh
  rw [if_pos hin] at hh
  refine Or.inr ⟨h.t, hh, ?_⟩
  have hq := h.ht
  rw [addMask_skew hz] at hq
  have b1' := abs_le.1 b1
  have a2' := abs_le.1 a2
  have hpos : ∀ x y : ℝ, 10 * (u * L) < x → 0 < y → y ≤ 2 → 2 * u ≤ x / y ∧ 0 < x / y := by
    intro x y hx hy hy2
    refine ⟨?_, div_pos (by linarith) hy⟩
    rw [le_div_iff₀ hy]
    nlinarith
  have hneg : 2 * u ≤ loc.o 2 / loc.d 2 ∧ 0 < loc.o 2 / loc.d 2 := by
    rcases le_or_gt 0 m with h0 | h0
    · rw [abs_of_nonneg h0] at hc b2 hmle
      exact hpos _ _ (by linarith) (by linarith) (by norm_num at hu6 hmle; linarith)
    · rw [abs_of_neg h0] at hc b2 hmle
      rw [← neg_div_neg_eq]
      exact hpos _ _ (by linarith) (by linarith) (by norm_num at hu6 hmle; linarith)
  have hq' := hq.neg
  rw [neg_div, neg_neg] at hq'
  have := (hq'.pos hu hu6 hneg.2 hneg.1).2
  linarith

/-- **C112 (3).** With doubles, the offset `1e-6` of the tracer and scenes of at most a hundred units: a ray that leaves a plane does not meet it again, unless it grazes it with a slope below `1e-6`. -/
theorem C112_plane_doubles {width length : ℝ} {M : Mat4} {loc : Ray} {hits : EReal × EReal} {p w p' : Vec4} (hs : Spec.Scene 100 ⟨p, w⟩) (hM : Spec.Placed 100 M)
    (hw : |width| ≤ 200) (hl2 : |length| ≤ 200) (hp : |Spec.seen M p 2| ≤ 6000 * 2 ^ (-53 : ℤ)) (hp' : AdvanceR (2 ^ (-53 : ℤ)) ⟨p, w⟩ 1e-6 p') (hp3 : p' 3 = 1)
    (hl : LocalR (2 ^ (-53 : ℤ)) M ⟨p', w⟩ loc) (h : PlaneR (2 ^ (-53 : ℤ)) width length loc hits) (hc : 1e-6 ≤ |Spec.facing M w 2|) :
    hits = (⊤, ⊤) ∨ ∃ t : ℝ, hits = ((t : EReal), (t : EReal)) ∧ t < 0 := by
  refine C112_plane_offset (by positivity) (by norm_num) hs hM (by linarith) (by linarith) (by linarith) (by norm_num) (by norm_num) hp' hp3 hl h ?_
  have := mul_le_mul_of_nonneg_left hc (show (0 : ℝ) ≤ 1e-6 by norm_num)
  refine lt_of_lt_of_le ?_ this
  norm_num

/-- **C112 (4).** No hits get lost: if the exact ray crosses the plane at the distance `T`, and inside the rectangle by a margin, then this hit is reported, at the distance `T` up to
`25 u L` divided by the slope of the ray. -/
theorem C112_plane_found (hu : 0 ≤ u) (hu6 : u ≤ 1e-6) {L width length T : ℝ} {M : Mat4} {ray loc : Ray} {hits : EReal × EReal} (hs : Spec.Scene L ray) (hM : Spec.Placed L M)
    (hw : |width| ≤ 2 * L) (hl2 : |length| ≤ 2 * L) (hl : LocalR u M ray loc) (h : PlaneR u width length loc hits) (hc : 0.001 ≤ |Spec.facing M ray.d 2|)
    (hT : Spec.seen M (ray.o + T • ray.d) 2 = 0) (h0 : |Spec.seen M (ray.o + T • ray.d) 0| ≤ width / 2 - (70 * u * L / |Spec.facing M ray.d 2| + 5e-8 * L))
    (h1 : |Spec.seen M (ray.o + T • ray.d) 1| ≤ length / 2 - (70 * u * L / |Spec.facing M ray.d 2| + 5e-8 * L)) :
    ∃ t : ℝ, hits = ((t : EReal), (t : EReal)) ∧ |t - T| ≤ 25 * u * L / |Spec.facing M ray.d 2| := by
  obtain ⟨e1, e2, hn⟩ := hl.near hu hu6 hs hM hw hl2
  have hL := hs.one_le
  have hL0 : 0 < L := by linarith
  have huL : 0 ≤ u * L := mul_nonneg hu hL0.le
  have huuL : u ≤ u * L := by nlinarith
  have hd := unit_le hs.length
  have a0 := e1 0
  have a1 := e1 1
  have a2 : |loc.o 2 - Spec.seen M ray.o 2| ≤ 8.05 * u * L := e1 2
  have b0 := e2 0
  have b1 := e2 1
  have b2 : |loc.d 2 - Spec.facing M ray.d 2| ≤ 4.01 * u := e2 2
  simp only [Fin.castSucc_zero, Fin.castSucc_one] at a0 a1 b0 b1
  set D := |Spec.facing M ray.d 2| with hD
  have hD0 : 0 < D := by norm_num at hc; linarith
  have hDle : D ≤ 1.001 := (abs_facing_le hM hd 2).trans (by norm_num)
  -- the distance is bounded
  have hTL : |T| ≤ 3.5 * L := by
    set q := Spec.seen M (ray.o + T • ray.d) with hq
    have hm : 0 ≤ 70 * u * L / D + 5e-8 * L := by positivity
    have q0 : |q 0| ≤ L := by have := (abs_le.1 hw).2; linarith
    have q1 : |q 1| ≤ L := by have := (abs_le.1 hl2).2; linarith
    have q3 : q 3 = 0 := by simp [hq, Spec.seen]
    have qn : norm4 q ≤ 1.42 * L := by
      refine (abs_le_of_sq_le_sq' ?_ (by positivity)).2
      rw [norm4, Real.sq_sqrt (by positivity), hT, q3]
      have c0 := pow_le_pow_left₀ (abs_nonneg _) q0 2
      have c1 := pow_le_pow_left₀ (abs_nonneg _) q1 2
      rw [sq_abs] at c0 c1
      have := sq_nonneg L
      rw [mul_pow]
      norm_num
      linarith
    have hT2 : T • Spec.facing M ray.d = q - Spec.seen M ray.o := by
      rw [hq, Spec.seen_step]; abel
    have hT3 : |T| * norm4 (Spec.facing M ray.d) ≤ 3.4202 * L := by
      rw [← norm4_smul, hT2]
      have c1 := norm4_add_le q (-Spec.seen M ray.o)
      rw [norm4_neg, ← sub_eq_add_neg] at c1
      have c2 := hM.seen_le hL0.le hs.start'
      norm_num at c2 qn ⊢
      linarith
    have hT4 : 0.99 ≤ norm4 (Spec.facing M ray.d) := by
      have c1 := (abs_le.1 (hM.facing_sq ray.d)).1
      rw [norm4_cut_sq] at c1
      have c2 := (abs_le.1 hs.length).1
      have c3 : dot3 ray.d ray.d = ray.d 0 ^ 2 + ray.d 1 ^ 2 + ray.d 2 ^ 2 := by simp only [dot3]; ring
      rw [← c3] at c2
      refine (abs_le_of_sq_le_sq' ?_ (norm4_nonneg _)).2
      norm_num at c1 c2 ⊢
      linarith
    have := mul_le_mul_of_nonneg_left hT4 (abs_nonneg T)
    norm_num at this hT3 ⊢
    linarith
  have hz : ¬ isclose0 (loc.d 2) := by
    intro hz
    have c1 := abs_add_le (Spec.facing M ray.d 2 - loc.d 2) (loc.d 2)
    rw [sub_add_cancel, abs_sub_comm] at c1
    simp only [isclose0] at hz
    norm_num at hz hc hu6 b2
    linarith
  have hq := h.ht
  rw [addMask_skew hz] at hq
  have hr := hq.quot hu (not_isclose0_ne hz)
  rw [abs_neg, sub_neg_eq_add] at hr
  have hr2 : |loc.d 2 * h.t + loc.o 2| ≤ 2.02 * u * L := by
    have c1 : |loc.o 2| ≤ 2.01 * L := hn.start 2
    have c2 := hn.comp.2.2
    have c3 : u * |loc.o 2| ≤ u * (2.01 * L) := mul_le_mul_of_nonneg_left c1 hu
    have c4 : u * (u * |loc.d 2|) ≤ u * (0.000001 * 2) := mul_le_mul_of_nonneg_left (mul_le_mul (hu6.trans (by norm_num)) c2 (abs_nonneg _) (by norm_num)) hu
    norm_num at hr c3 c4 ⊢
    linarith
  -- the error of the distance
  have step : ∀ i, Spec.seen M (ray.o + T • ray.d) i = Spec.seen M ray.o i + T * Spec.facing M ray.d i := fun i => by rw [Spec.seen_step]; rfl
  rw [step] at hT h0 h1
  set t := h.t with ht
  have hdiff : D * |t - T| ≤ 4.01 * u * |t| + 10.07 * u * L := by
    rw [hD, ← abs_mul]
    have c1 : |(Spec.facing M ray.d 2 - loc.d 2) * t| ≤ 4.01 * u * |t| := by
      rw [abs_mul, abs_sub_comm]; exact mul_le_mul_of_nonneg_right b2 (abs_nonneg _)
    have c2 : Spec.facing M ray.d 2 * (t - T) = (Spec.facing M ray.d 2 - loc.d 2) * t + (loc.d 2 * t + loc.o 2) - (loc.o 2 - Spec.seen M ray.o 2) := by linear_combination -hT
    rw [c2]
    have c3 := abs_le.1 c1
    have c4 := abs_le.1 hr2
    have c5 := abs_le.1 a2
    rw [abs_le]
    constructor <;> linarith
  have htT : |t| ≤ |t - T| + 3.5 * L := by
    have := abs_add_le (t - T) T
    rw [sub_add_cancel] at this
    linarith
  have herr : D * |t - T| ≤ 25 * u * L := by
    have c1 : 4.01 * u * |t| ≤ 4.01 * u * (|t - T| + 3.5 * L) := mul_le_mul_of_nonneg_left htT (by positivity)
    have c2 : 4.01 * u ≤ 0.00402 * D := by norm_num at hu6 hc ⊢; linarith
    have c3 := mul_le_mul_of_nonneg_right c2 (abs_nonneg (t - T))
    have c4 : 0 ≤ D * |t - T| := by positivity
    norm_num at c1 c3 hdiff ⊢
    linarith
  have herr' : |t - T| ≤ 25 * u * L / D := by rw [le_div_iff₀ hD0]; linarith
  have hsmall : 25 * u * L / D ≤ 0.03 * L := by
    rw [div_le_iff₀ hD0]
    have : 25 * u * L ≤ 0.000025 * L := mul_le_mul_of_nonneg_right (by norm_num at hu6 ⊢; linarith) hL0.le
    have c2 := mul_le_mul_of_nonneg_left hc hL0.le
    norm_num at this c2 ⊢
    linarith
  have htL : |t| ≤ 3.53 * L := by norm_num at htT hsmall ⊢; linarith
  have hmar : u * L ≤ 1.001 * (u * L / D) := by
    rw [← mul_div_assoc, le_div_iff₀ hD0]
    have := mul_le_mul_of_nonneg_left hDle huL
    linarith
  have axis : ∀ {o d P V dim : ℝ}, |o - P| ≤ 8.05 * u * L → |d - V| ≤ 4.01 * u → |V| ≤ 1.001 → |P + T * V| ≤ dim / 2 - (70 * u * L / D + 5e-8 * L) →
      (isclose0 d → |o| ≤ dim / 2 - 1.001 * u * (2.01 * L)) ∧ (¬ isclose0 d → |o + d * t| ≤ dim / 2 - 5.1 * u * (2.01 * L)) := by
    intro o d P V dim c1 c2 c3 c4
    have c1' := abs_le.1 c1
    have c4' := abs_le.1 c4
    have e70 : 70 * u * L / D = 70 * (u * L / D) := by ring
    have e25 : 25 * u * L / D = 25 * (u * L / D) := by ring
    rw [e70] at c4'
    rw [e25] at herr'
    set X := u * L / D with hX
    have hX0 : 0 ≤ X := by positivity
    refine ⟨fun hz => ?_, fun hz => ?_⟩
    · have c5 : |V| ≤ 1e-8 + 4.01 * u := by
        have := abs_sub d (d - V)
        rw [sub_sub_cancel] at this
        have hz' : |d| ≤ 1e-8 := hz
        linarith
      have c6 : |T * V| ≤ (3.5 * L) * (1e-8 + 4.01 * u) := by rw [abs_mul]; exact mul_le_mul hTL c5 (abs_nonneg _) (by positivity)
      have c6' := abs_le.1 c6
      norm_num at c1' c4' c6' ⊢
      rw [abs_le]
      constructor <;> linarith
    · have c5 : |(d - V) * t| ≤ 4.01 * u * (3.53 * L) := by rw [abs_mul]; exact mul_le_mul c2 htL (abs_nonneg _) (by positivity)
      have c6 : |V * (t - T)| ≤ 1.001 * (25 * X) := by rw [abs_mul]; exact mul_le_mul c3 herr' (abs_nonneg _) (by norm_num)
      have c5' := abs_le.1 c5
      have c6' := abs_le.1 c6
      have c7 : o + d * t = (o - P) + (d - V) * t + V * (t - T) + (P + T * V) := by ring
      rw [c7, abs_le]
      norm_num at c1' c4' c5' c6' ⊢
      constructor <;> linarith
  have V0 := (abs_facing_le hM hd 0).trans (show (1.0001 : ℝ) * 1.0001 ≤ 1.001 by norm_num)
  have V1 := (abs_facing_le hM hd 1).trans (show (1.0001 : ℝ) * 1.0001 ≤ 1.001 by norm_num)
  obtain ⟨x1, x2⟩ := axis a0 b0 V0 h0
  obtain ⟨y1, y2⟩ := axis a1 b1 V1 h1
  exact ⟨t, h.complete hu hu6 hn hz x1 x2 y1 y2, herr'⟩

end PyRayT
