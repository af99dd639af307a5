import Verif.Props.UnitNormals
import Verif.Proofs.Moved

/-! Helper lemmas for C86: the laws of `Interacts` at perpendicular incidence and at two parallel faces. -/

namespace PyRayT

open Classical Matrix Spec

theorem sinTo_neg (u n : Vec4) : Spec.sinTo u (-n) = Spec.sinTo u n := by
  unfold Spec.sinTo; rw [dot4_neg_right, neg_sq]

/-- a unit vector along a unit vector is it or its opposite -/
theorem parallel_unit {u n : Vec4} (hu : dot4 u u = 1) (hn : dot4 n n = 1) {κ : ℝ} (h : ∀ i, u i = κ * n i) :
    κ ^ 2 = 1 ∧ dot4 u n = κ := by
  have e : dot4 u n = κ := by
    have : dot4 u n = κ * dot4 n n := by unfold dot4; rw [h 0, h 1, h 2, h 3]; ring
    rw [this, hn, mul_one]
  refine ⟨?_, e⟩
  have : dot4 u u = κ ^ 2 * dot4 n n := by unfold dot4; rw [h 0, h 1, h 2, h 3]; ring
  rw [← hu, this, hn, mul_one]

theorem interacts_parallel_mirror {lam n1 n2 κ : ℝ} {n u w : Vec4} (hu : dot4 u u = 1) (hn : dot4 n n = 1) (h : ∀ i, u i = κ * n i)
    (hi : Interacts .mirror lam n u n1 w n2) : (∀ i, w i = -u i) ∧ n2 = n1 := by
  obtain ⟨h2, e⟩ := parallel_unit hu hn h
  refine ⟨fun i => ?_, hi.2⟩
  rw [hi.1 i, e, h i]; ring

theorem interacts_parallel_glass {g : IndexModel} {lam n1 n2 κ : ℝ} {n u w : Vec4} (hu : dot4 u u = 1) (hn : dot4 n n = 1)
    (hw : dot4 w w = 1) (hg : 0 < g.indexAt lam)
    (h : ∀ i, u i = κ * n i) (hi : Interacts (.glass g) lam n u n1 w n2) :
    (∀ i, w i = u i) ∧ n2 = if 0 < dot4 u n then 1 else g.indexAt lam := by
  obtain ⟨h2, e⟩ := parallel_unit hu hn h
  have hs : Spec.sinTo u n = 0 := by unfold Spec.sinTo; rw [e, h2]; simp
  simp only [Interacts, hs, mul_zero] at hi
  have hfar : 0 < (if 0 < dot4 u n then 1 else g.indexAt lam) := by split <;> [exact one_pos; exact hg]
  rcases hi with ⟨-, -, ht, -, hp, hm, hn2⟩ | ⟨hle, -⟩
  · refine ⟨fun i => ?_, hn2⟩
    have ht' : ∀ i, w i = dot4 w n * n i := by
      intro i
      have := ht i
      rw [e, h i, sub_self, mul_zero] at this
      rcases mul_eq_zero.1 this.symm with h0 | h0
      · rw [e] at hfar; exact absurd h0 hfar.ne'
      · linarith
    obtain ⟨h2', -⟩ := parallel_unit hw hn ht'
    rw [ht' i, h i]
    congr 1
    rw [e] at hp hm
    by_cases hk : 0 < κ
    · have := hp hk
      nlinarith
    · have h3 := hm (not_lt.1 hk)
      have : κ ≠ 0 := by rintro rfl; norm_num at h2
      have : κ < 0 := lt_of_le_of_ne (not_lt.1 hk) this
      nlinarith
  · exact absurd hle (not_le.2 hfar)

theorem unit_split {w n : Vec4} (hw : dot4 w w = 1) (hn : dot4 n n = 1) :
    (w 0 - dot4 w n * n 0) ^ 2 + (w 1 - dot4 w n * n 1) ^ 2 + (w 2 - dot4 w n * n 2) ^ 2 + (w 3 - dot4 w n * n 3) ^ 2 =
      1 - dot4 w n ^ 2 := by
  generalize hd : dot4 w n = d
  unfold dot4 at hw hn hd
  linear_combination hw + d ^ 2 * hn - 2 * d * hd

/-- two unit vectors with the same part across `n` and the same side of `n` are equal -/
theorem eq_of_across {u w n : Vec4} (hu : dot4 u u = 1) (hw : dot4 w w = 1) (hn : dot4 n n = 1)
    (h : ∀ i, u i - dot4 u n * n i = w i - dot4 w n * n i) (h1 : dot4 u n < 0) (h2 : dot4 w n < 0) : ∀ i, w i = u i := by
  have e1 := unit_split hu hn
  have e2 := unit_split hw hn
  rw [h 0, h 1, h 2, h 3, e2] at e1
  have e : dot4 w n = dot4 u n := by nlinarith
  intro i
  have := h i
  rw [e] at this
  linarith

/-- through a plate of glass: the second face is crossed, and the direction is the first one again -/
theorem interacts_window {g g' : IndexModel} {lam n2 n3 : ℝ} {n u w v : Vec4} (hu : dot4 u u = 1) (hn : dot4 n n = 1) (hw : dot4 w w = 1)
    (hv : dot4 v v = 1) (hg : 1 ≤ g.indexAt lam) (hgg : g'.indexAt lam = g.indexAt lam) (hin : dot4 u n < 0)
    (hi : Interacts (.glass g) lam n u 1 w n2) (hi' : Interacts (.glass g') lam (-n) w n2 v n3) :
    n2 = g.indexAt lam ∧ n3 = 1 ∧ ∀ i, v i = u i := by
  have hs : Spec.sinTo u n < 1 := by
    unfold Spec.sinTo
    rw [Real.sqrt_lt' one_pos]
    have : 0 < dot4 u n ^ 2 := by nlinarith
    linarith
  have hg0 : 0 < g.indexAt lam := by linarith
  simp only [Interacts, if_neg (not_lt.2 hin.le), one_mul] at hi
  rcases hi with ⟨-, -, ht, hsn, -, hm, hn2⟩ | ⟨hle, -⟩
  · have hwn := hm hin.le
    have hp : 0 < dot4 w (-n) := by rw [dot4_neg_right]; linarith
    simp only [Interacts, if_pos hp, hn2, sinTo_neg, one_mul] at hi'
    rcases hi' with ⟨-, -, ht', -, hp', -, hn3⟩ | ⟨hle, -⟩
    · refine ⟨hn2, hn3, eq_of_across hu hv hn (fun i => ?_) hin ?_⟩
      · rw [ht i]
        have := ht' i
        rw [dot4_neg_right, dot4_neg_right] at this
        simp only [Pi.neg_apply] at this
        linarith
      · have := hp' hp
        rw [dot4_neg_right] at this
        linarith
    · rw [← hsn] at hle
      linarith
  · linarith

end PyRayT
