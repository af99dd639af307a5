import Verif.Proofs.Arrays
import Verif.Model.Shapes2D
import Verif.Props.Primitives

/-!
# Properties C78-C81: array classes, 2D shapes, overlap, centred cuboids
-/

namespace PyRayT

open Spec (Val)

/-- **C78, values.** Whatever a program does with points, vectors, rays and bundles, every expression (`p`, `ray.origin`,
`ray.direction`, `bundle[k, r, j]`) evaluates to what it would be if every array were a value of its own: constructors and assignments
copy, writes through `ray.origin` and `ray.direction` change that ray, and nothing else changes. The operations raise in the same
cases. In particular the default arguments of `Ray` are never shared. -/
theorem C78_values (ops : List ArrOp) :
    (∀ r, (ArrState.init.run ops).read r = Spec.read (Spec.run [] ops) r) ∧
    (∀ i k r j, (ArrState.init.run ops).readBundle i k r j = Spec.readBundle (Spec.run [] ops) i k r j) ∧
    (∀ o, (ArrState.init.run ops).step o = none ↔ Spec.step (Spec.run [] ops) o = none) := by
  have h := ArrRel.init.run ops
  refine ⟨fun r => h.read r, fun i k r j => h.readBundle i k r j, fun o => ?_⟩
  rcases h.step o with ⟨h1, h2⟩ | ⟨s', vs', h1, h2, -⟩
  · simp [h1, h2]
  · simp [h1, h2]

/-- **C78, normalize.** After `normalize()` of a point, a vector, or `origin`/`direction` of a ray whose first three components are
not all zero, these three components have length one and the direction they had, and `w` is as before. -/
theorem C78_normalize (ops : List ArrOp) (r : Ref) (v : Vec4) (hv : (ArrState.init.run ops).read r = some v)
    (h0 : v 0 ^ 2 + v 1 ^ 2 + v 2 ^ 2 ≠ 0) :
    ∃ u s, (ArrState.init.run (ops ++ [.normalize r])).read r = some u ∧ u 0 ^ 2 + u 1 ^ 2 + u 2 ^ 2 = 1 ∧ 0 < s ∧
      v 0 = s * u 0 ∧ v 1 = s * u 1 ∧ v 2 = s * u 2 ∧ u 3 = v 3 := by
  have h := ArrRel.init.run ops
  rw [h.read] at hv
  rw [(ArrRel.init.run (ops ++ [ArrOp.normalize r])).read]
  set vs := Spec.run [] ops with hvs
  have hrun : Spec.run [] (ops ++ [.normalize r]) = Spec.write vs r (Spec.unit3 v) := by
    unfold Spec.run at hvs ⊢
    rw [List.foldl_append, ← hvs]
    simp [Spec.step, hv]
  rw [hrun]
  have hread : Spec.read (Spec.write vs r (Spec.unit3 v)) r = some (Spec.unit3 v) := by
    cases r with
    | whole i =>
      simp only [Spec.read] at hv
      split at hv
      · rename_i w hw
        have := (List.getElem?_eq_some_iff.1 hw).1
        simp [Spec.read, Spec.write, this]
      · cases hv
    | origin i =>
      simp only [Spec.read] at hv
      split at hv
      · rename_i o d hw
        have := (List.getElem?_eq_some_iff.1 hw).1
        simp only [Spec.read, Spec.write, hw, List.getElem?_set_self this]
      · cases hv
    | direction i =>
      simp only [Spec.read] at hv
      split at hv
      · rename_i o d hw
        have := (List.getElem?_eq_some_iff.1 hw).1
        simp only [Spec.read, Spec.write, hw, List.getElem?_set_self this]
      · cases hv
  have hpos : 0 < v 0 ^ 2 + v 1 ^ 2 + v 2 ^ 2 := lt_of_le_of_ne (by positivity) (Ne.symm h0)
  set n := √(v 0 ^ 2 + v 1 ^ 2 + v 2 ^ 2) with hn
  have hnpos : 0 < n := Real.sqrt_pos.2 hpos
  have hsq : n ^ 2 = v 0 ^ 2 + v 1 ^ 2 + v 2 ^ 2 := Real.sq_sqrt hpos.le
  refine ⟨_, n, hread, ?_, hnpos, ?_, ?_, ?_, ?_⟩
  · simp only [Spec.unit3, ← hn]
    simp only [Matrix.cons_val_zero, Matrix.cons_val_one, Matrix.cons_val]
    rw [div_pow, div_pow, div_pow, ← add_div, ← add_div, ← hsq, div_self (by positivity)]
  · simp only [Spec.unit3, ← hn, Matrix.cons_val_zero]; field_simp
  · simp only [Spec.unit3, ← hn, Matrix.cons_val_one, Matrix.cons_val_zero]; field_simp
  · simp only [Spec.unit3, ← hn, Matrix.cons_val]; field_simp
  · simp [Spec.unit3]

/-- A program that would show any sharing: two default rays, the first is changed through a view; a bundle is made of both, then
the second ray gets a new origin. The second ray keeps its default direction, the bundle keeps the old origin. -/
example : let s := ArrState.init.run [.newRay none none, .newRay none none, .setComp (.direction 0) 1 5, .bundle [0, 1],
      .newPoint 7 8 9, .setOrigin 1 (.whole 3), .setComp (.whole 3) 0 100]
    s.read (.direction 0) = some ![1, 5, 0, 0] ∧ s.read (.direction 1) = some ![1, 0, 0, 0] ∧
    s.read (.origin 1) = some ![7, 8, 9, 1] ∧ s.readBundle 2 0 0 1 = some 0 ∧ s.readBundle 2 1 1 0 = some 5 := by
  have h := C78_values [.newRay none none, .newRay none none, .setComp (.direction 0) 1 5, .bundle [0, 1],
      .newPoint 7 8 9, .setOrigin 1 (.whole 3), .setComp (.whole 3) 0 100]
  simp only [h.1, h.2.1]
  have e : ∀ a b c d : ℝ, Function.update ![a, b, c, d] 1 (5 : ℝ) = ![a, 5, c, d] := fun a b c d => by
    funext i; fin_cases i <;> simp [Function.update]
  simp [Spec.run, Spec.step, Spec.arg, Spec.read, Spec.write, Spec.rays, Spec.readBundle, Spec.comp, point, vector, e]

/-- Non-vacuity of `C78_normalize`: the direction of a ray. -/
example : (ArrState.init.run [.newVector 3 4 0, .newRay none (some (.whole 0))]).read (.direction 1) = some ![3, 4, 0, 0] ∧
    (![3, 4, 0, 0] : Vec4) 0 ^ 2 + (![3, 4, 0, 0] : Vec4) 1 ^ 2 + (![3, 4, 0, 0] : Vec4) 2 ^ 2 ≠ 0 := by
  have h := C78_values [.newVector 3 4 0, .newRay none (some (.whole 0))]
  simp only [h.1]
  constructor
  · simp [Spec.run, Spec.step, Spec.arg, Spec.read, vector]
  · simp; norm_num

/-! ### C79 -/

namespace Spec

/-- the answers for the points one by one, with the shape of the question -/
def Answers (inside : ℝ → ℝ → Prop) : Points → Mask → Prop
  | .one x y, .scalar b => (b ↔ inside x y)
  | .many ps, .array bs => List.Forall₂ (fun p b => b ↔ inside p.1 p.2) ps bs
  | _, _ => False

end Spec

theorem forall2_map {inside : ℝ → ℝ → Prop} (f : ℝ × ℝ → Prop) (hf : ∀ p, f p ↔ inside p.1 p.2) (ps : List (ℝ × ℝ)) :
    List.Forall₂ (fun p b => b ↔ inside p.1 p.2) ps (ps.map f) := by
  induction ps with
  | nil => exact .nil
  | cons p ps ih => exact .cons (hf p) ih

/-- **C79.** `point_in_shape` answers for one point with one boolean and for an array with an array, entry by entry; the region
of a disk is the closed disk around the origin with that radius (nothing if the radius is negative), that of
`Disk.from_diameter(d)` has half the diameter as radius, and that of a rectangle is the closed rectangle with these side lengths
centred at the origin. -/
theorem C79_point_in_shape (r d xl yl : ℝ) (ps : Points) :
    Spec.Answers (fun x y => 0 ≤ r ∧ x ^ 2 + y ^ 2 ≤ r ^ 2) ps (diskContains r ps) ∧
    Spec.Answers (fun x y => 0 ≤ d ∧ 4 * (x ^ 2 + y ^ 2) ≤ d ^ 2) ps (diskContains (diskFromDiameter d) ps) ∧
    Spec.Answers (fun x y => -xl ≤ 2 * x ∧ 2 * x ≤ xl ∧ -yl ≤ 2 * y ∧ 2 * y ≤ yl) ps (rectangleContains xl yl ps) := by
  have disk : ∀ r x y : ℝ, √(x ^ 2 + y ^ 2) ≤ r ↔ (0 ≤ r ∧ x ^ 2 + y ^ 2 ≤ r ^ 2) := fun r x y => by
    constructor
    · intro h
      have h0 : 0 ≤ r := (Real.sqrt_nonneg _).trans h
      exact ⟨h0, (Real.sqrt_le_left h0).1 h⟩
    · rintro ⟨h0, h⟩
      exact (Real.sqrt_le_left h0).2 h
  have disk2 : ∀ x y : ℝ, √(x ^ 2 + y ^ 2) ≤ diskFromDiameter d ↔ (0 ≤ d ∧ 4 * (x ^ 2 + y ^ 2) ≤ d ^ 2) := fun x y => by
    rw [disk, diskFromDiameter]
    constructor
    · rintro ⟨h1, h2⟩; exact ⟨by linarith, by nlinarith⟩
    · rintro ⟨h1, h2⟩; exact ⟨by linarith, by nlinarith⟩
  have rect : ∀ x y : ℝ, (|x| ≤ xl / 2 ∧ |y| ≤ yl / 2) ↔ (-xl ≤ 2 * x ∧ 2 * x ≤ xl ∧ -yl ≤ 2 * y ∧ 2 * y ≤ yl) := fun x y => by
    rw [abs_le, abs_le]
    constructor
    · rintro ⟨⟨h1, h2⟩, h3, h4⟩; exact ⟨by linarith, by linarith, by linarith, by linarith⟩
    · rintro ⟨h1, h2, h3, h4⟩; exact ⟨⟨by linarith, by linarith⟩, by linarith, by linarith⟩
  cases ps with
  | one x y => exact ⟨disk r x y, disk2 x y, rect x y⟩
  | many ps =>
    refine ⟨?_, ?_, ?_⟩
    · exact forall2_map (inside := fun x y => 0 ≤ r ∧ x ^ 2 + y ^ 2 ≤ r ^ 2) _ (fun p => disk r p.1 p.2) ps
    · exact forall2_map (inside := fun x y => 0 ≤ d ∧ 4 * (x ^ 2 + y ^ 2) ≤ d ^ 2) _ (fun p => disk2 p.1 p.2) ps
    · exact forall2_map (inside := fun x y => -xl ≤ 2 * x ∧ 2 * x ≤ xl ∧ -yl ≤ 2 * y ∧ 2 * y ≤ yl) _
        (fun p => rect p.1 p.2) ps

/-- the boundary belongs to the shapes, the corner of a square does not belong to its inscribed disk -/
example : ∃ b1 b2 b3, diskContains 1 (.many [(1, 0), (1, 1)]) = .array [b1, b2] ∧ b1 ∧ ¬ b2 ∧
    rectangleContains 2 2 (.one 1 1) = .scalar b3 ∧ b3 := by
  refine ⟨_, _, _, rfl, ?_, ?_, rfl, ?_⟩
  · norm_num
  · rw [not_le, Real.lt_sqrt (by norm_num)]; norm_num
  · norm_num

/-! ### C80 -/

theorem npMin_le (x : ℝ) (xs : List ℝ) : (∀ v ∈ x :: xs, npMin x xs ≤ v) ∧ npMin x xs ∈ x :: xs := by
  unfold npMin
  induction xs generalizing x with
  | nil => simp
  | cons y ys ih =>
    obtain ⟨h1, h2⟩ := ih (min x y)
    have h3 := h1 (min x y) (by simp)
    refine ⟨fun v hv => ?_, ?_⟩
    · simp only [List.mem_cons] at hv
      rw [List.foldl_cons]
      rcases hv with rfl | rfl | hv
      · exact h3.trans (min_le_left _ _)
      · exact h3.trans (min_le_right _ _)
      · exact h1 v (by simp [hv])
    · rw [List.foldl_cons]
      simp only [List.mem_cons] at h2 ⊢
      rcases h2 with h2 | h2
      · rw [h2]
        rcases min_choice x y with e | e <;> rw [e] <;> simp
      · simp [h2]

theorem le_npMax (x : ℝ) (xs : List ℝ) : (∀ v ∈ x :: xs, v ≤ npMax x xs) ∧ npMax x xs ∈ x :: xs := by
  unfold npMax
  induction xs generalizing x with
  | nil => simp
  | cons y ys ih =>
    obtain ⟨h1, h2⟩ := ih (max x y)
    have h3 := h1 (max x y) (by simp)
    refine ⟨fun v hv => ?_, ?_⟩
    · simp only [List.mem_cons] at hv
      rw [List.foldl_cons]
      rcases hv with rfl | rfl | hv
      · exact (le_max_left _ _).trans h3
      · exact (le_max_right _ _).trans h3
      · exact h1 v (by simp [hv])
    · rw [List.foldl_cons]
      simp only [List.mem_cons] at h2 ⊢
      rcases h2 with h2 | h2
      · rw [h2]
        rcases max_choice x y with e | e <;> rw [e] <;> simp
      · simp [h2]

namespace Spec

/-- `v` lies between two entries of the list -/
def InRange (v : ℝ) (xs : List ℝ) : Prop := ∃ l ∈ xs, ∃ u ∈ xs, l ≤ v ∧ v ≤ u

end Spec

/-- **C80.** For a 1-d first array and two non-empty arrays, `overlap` returns, in their order, exactly the entries of each array
that lie in the range of the other; at least one of the two results is not empty as soon as some number lies in both ranges. An empty array
makes it raise, a first array with more axes makes it return `None`. -/
theorem C80_overlap (a b : List ℝ) :
    (a ≠ [] → b ≠ [] → ∃ a' b', overlap true a b = .arrays a' b' ∧ a'.Sublist a ∧ b'.Sublist b ∧
      (∀ v, a'.count v = open Classical in if Spec.InRange v b then a.count v else 0) ∧
      (∀ v, b'.count v = open Classical in if Spec.InRange v a then b.count v else 0) ∧
      ((∃ v, Spec.InRange v a ∧ Spec.InRange v b) → a' ≠ [] ∨ b' ≠ [])) ∧
    (a = [] ∨ b = [] → overlap true a b = .valueError) ∧ overlap false a b = .none := by
  classical
  refine ⟨?_, ?_, rfl⟩
  · intro ha hb
    obtain ⟨x, xs, rfl⟩ := List.exists_cons_of_ne_nil ha
    obtain ⟨y, ys, rfl⟩ := List.exists_cons_of_ne_nil hb
    obtain ⟨mn1, mn1'⟩ := npMin_le x xs
    obtain ⟨mn2, mn2'⟩ := npMin_le y ys
    obtain ⟨mx1, mx1'⟩ := le_npMax x xs
    obtain ⟨mx2, mx2'⟩ := le_npMax y ys
    have r1 : ∀ v, Spec.InRange v (x :: xs) ↔ npMin x xs ≤ v ∧ v ≤ npMax x xs := fun v =>
      ⟨fun ⟨l, hl, u, hu, h1, h2⟩ => ⟨(mn1 l hl).trans h1, h2.trans (mx1 u hu)⟩, fun h => ⟨_, mn1', _, mx1', h.1, h.2⟩⟩
    have r2 : ∀ v, Spec.InRange v (y :: ys) ↔ npMin y ys ≤ v ∧ v ≤ npMax y ys := fun v =>
      ⟨fun ⟨l, hl, u, hu, h1, h2⟩ => ⟨(mn2 l hl).trans h1, h2.trans (mx2 u hu)⟩, fun h => ⟨_, mn2', _, mx2', h.1, h.2⟩⟩
    refine ⟨_, _, rfl, List.filter_sublist, List.filter_sublist, fun v => ?_, fun v => ?_, ?_⟩
    · by_cases hv : Spec.InRange v (y :: ys)
      · rw [if_pos hv]
        by_cases hm : v ∈ x :: xs
        · rw [List.count_filter]
          have := (r2 v).1 hv
          simp [mn1 v hm, mx1 v hm, this]
        · rw [List.count_eq_zero_of_not_mem hm, List.count_eq_zero_of_not_mem (fun h => hm (List.mem_of_mem_filter h))]
      · rw [if_neg hv]
        refine List.count_eq_zero_of_not_mem (fun h => hv ((r2 v).2 ?_))
        have := (List.mem_filter.1 h).2
        simp only [max_le_iff, le_min_iff, decide_eq_true_eq] at this
        exact ⟨this.1.2, this.2.2⟩
    · by_cases hv : Spec.InRange v (x :: xs)
      · rw [if_pos hv]
        by_cases hm : v ∈ y :: ys
        · rw [List.count_filter]
          have := (r1 v).1 hv
          simp [mn2 v hm, mx2 v hm, this]
        · rw [List.count_eq_zero_of_not_mem hm, List.count_eq_zero_of_not_mem (fun h => hm (List.mem_of_mem_filter h))]
      · rw [if_neg hv]
        refine List.count_eq_zero_of_not_mem (fun h => hv ((r1 v).2 ?_))
        have := (List.mem_filter.1 h).2
        simp only [max_le_iff, le_min_iff, decide_eq_true_eq] at this
        exact ⟨this.1.1, this.2.1⟩
    · rintro ⟨v, h1, h2⟩
      rw [r1] at h1
      rw [r2] at h2
      rcases le_total (npMin x xs) (npMin y ys) with hle | hle
      · right
        refine List.ne_nil_of_mem (a := npMin y ys) (List.mem_filter.2 ⟨mn2', ?_⟩)
        simp only [max_le_iff, le_min_iff, decide_eq_true_eq]
        exact ⟨⟨hle, le_refl _⟩, h2.1.trans h1.2, mx2 _ mn2'⟩
      · left
        refine List.ne_nil_of_mem (a := npMin x xs) (List.mem_filter.2 ⟨mn1', ?_⟩)
        simp only [max_le_iff, le_min_iff, decide_eq_true_eq]
        exact ⟨⟨le_refl _, hle⟩, mx1 _ mn1', h1.1.trans h2.2⟩
  · rintro (rfl | rfl)
    · rfl
    · cases a <;> rfl

/-- non-vacuity of C80: `overlap([5, 1, 3], [2, 9])` is `([5, 3], [2])` -/
example : overlap true [5, 1, 3] [2, 9] = .arrays [5, 3] [2] := by
  simp [overlap, npMin, npMax]
  norm_num

/-! ### C81 -/

/-- **C81.** The cuboid made by `Cuboid.from_sides(x, y, z)` is the box with these side lengths centred at its origin: a ray whose
direction components are zero or above tolerance hits it at the ends of the part of its line in this box, or misses if that part is
at most a point. Negative side lengths count with their absolute value. `from_length(l)` is `from_sides(l, l, l)`. -/
theorem C81_centred_cuboid (x y z : ℝ) (ray : Ray) (h0 : Clear (ray.d 0)) (h1 : Clear (ray.d 1)) (h2 : Clear (ray.d 2)) :
    let h := (cuboidSides x y z).intersect ray
    let inBox := fun t : ℝ => 2 * |ray.at t 0| ≤ |x| ∧ 2 * |ray.at t 1| ≤ |y| ∧ 2 * |ray.at t 2| ≤ |z|
    ((h.1 < h.2 ∧ ∀ t : ℝ, (h.1 ≤ t ∧ (t : EReal) ≤ h.2) ↔ inBox t) ∨
      (h = (⊤, ⊤) ∧ ∀ s t : ℝ, inBox s → inBox t → s = t)) ∧
    cuboidLength x = cuboidSides x x x := by
  have side : ∀ c p : ℝ, (min (-0.5 * c) (0.5 * c) ≤ p ∧ p ≤ max (-0.5 * c) (0.5 * c)) ↔ 2 * |p| ≤ |c| := fun c p => by
    have e1 : max (-0.5 * c) (0.5 * c) = |c| / 2 := by
      rcases le_total 0 c with hc | hc
      · rw [abs_of_nonneg hc, max_eq_right (by linarith)]; ring
      · rw [abs_of_nonpos hc, max_eq_left (by linarith)]; ring
    have e2 : min (-0.5 * c) (0.5 * c) = -(|c| / 2) := by
      rcases le_total 0 c with hc | hc
      · rw [abs_of_nonneg hc, min_eq_left (by linarith)]; ring
      · rw [abs_of_nonpos hc, min_eq_right (by linarith)]; ring
    rw [e1, e2, ← abs_le]
    constructor <;> intro h <;> linarith
  intro h inBox
  refine ⟨?_, ?_⟩
  · have := C08_cube ![-0.5 * x, -0.5 * y, -0.5 * z] ![0.5 * x, 0.5 * y, 0.5 * z] ray h0 h1 h2
    have hin : ∀ t, (∀ i : Fin 3, min ((![-0.5 * x, -0.5 * y, -0.5 * z] : Fin 3 → ℝ) i) ((![0.5 * x, 0.5 * y, 0.5 * z] : Fin 3 → ℝ) i) ≤
        ray.at t i.castSucc ∧ ray.at t i.castSucc ≤
        max ((![-0.5 * x, -0.5 * y, -0.5 * z] : Fin 3 → ℝ) i) ((![0.5 * x, 0.5 * y, 0.5 * z] : Fin 3 → ℝ) i)) ↔ inBox t := fun t => by
      rw [Fin.forall_fin_succ, Fin.forall_fin_succ, Fin.forall_fin_succ]
      simp only [inBox, ← side]
      simp
    simp only [hin] at this
    exact this
  · unfold cuboidLength cuboidSides
    congr 1 <;> (funext i; fin_cases i <;> simp <;> ring)

/-- non-vacuity of C81: a ray through the middle -/
example : Clear ((⟨point 0 0 (-3), vector 0 0 1⟩ : Ray).d 0) ∧ Clear ((⟨point 0 0 (-3), vector 0 0 1⟩ : Ray).d 2) ∧
    2 * |(⟨point 0 0 (-3), vector 0 0 1⟩ : Ray).at 2 2| ≤ |(4 : ℝ)| := by
  refine ⟨Or.inl (by simp [vector]), Or.inr (by simp [vector]; norm_num), ?_⟩
  simp [Ray.at, point, vector]; norm_num

end PyRayT
