import Verif.Proofs.Special
import Verif.Props.UnitNormals

/-!
# Hits and normals in the model with nan

The hits of objects and the nearest hit of a ray are those of the model without nan.
-/

namespace PyRayT

open Classical Flt Matrix Spec

/-! ### `array_csg` -/

theorem gather_num (xs : List EReal) (σ : List ℕ) : gather inf (xs.map num) σ = (gather ⊤ xs σ).map num := by
  simp only [gather, List.map_map]
  refine List.map_congr_left fun i _ => ?_
  simp only [Function.comp_apply, List.getD_eq_getElem?_getD, List.getElem?_map]
  cases xs[i]? <;> rfl

variable {argsort : List EReal → List ℕ} {argsortF : List Flt → List ℕ}

theorem arrayCsgF_num (hF : ∀ xs, argsortF (xs.map num) = argsort xs) (l r : List EReal) (op : Operation) :
    arrayCsgUnsortedF argsortF (l.map num) (r.map num) op = (arrayCsgUnsorted argsort l r op).map num := by
  simp only [arrayCsgUnsortedF, arrayCsgUnsorted, ← List.map_append, hF, gather_num, List.length_map]
  rw [List.zipWith_map_left, List.map_zipWith]
  congr 1
  funext v k
  cases k <;> rfl

theorem csgCombineF_num (hF : ∀ xs, argsortF (xs.map num) = argsort xs) (op : Operation) (l r : List EReal) (ls rs : List ℤ) :
    csgCombineF argsortF op (l.map num) ls (r.map num) rs = ((csgCombine argsort (-1) op l ls r rs).1.map num, (csgCombine argsort (-1) op l ls r rs).2) := by
  simp only [csgCombineF, csgCombine, arrayCsgF_num hF, ← List.map_append, hF, gather_num]

/-! ### objects -/

theorem isfinite_num (x : EReal) : (num x).isfinite ↔ x ≠ ⊤ ∧ x ≠ ⊥ := by
  simp [Flt.isfinite, EReal.isInf]

theorem boxPassesF_of (box : Box) (ray : Ray) : boxPassesF box (RayF.of ray) ↔ boxPasses box ray := by
  simp only [boxPassesF, boxPasses, boxIntersectF_of, numP, isfinite_num]

theorem leaf_of (m : Mat4) (ray : Ray) : (⟨matF m (RayF.of ray).o, matF m (RayF.of ray).d⟩ : RayF) = RayF.of (ray.map m) := by
  simp only [RayF.of, matF_of, Ray.map]

theorem leafIntersectF_of {m : Mat4} {ray : Ray} (h : ¬ (ray.map m).still) (oid : ℕ) (p : Prim) :
    leafIntersectF m oid p (RayF.of ray) = ((leafIntersect m oid p ray).1.map num, (leafIntersect m oid p ray).2) := by
  simp only [leafIntersectF, leafIntersect, leaf_of, intersectF_of p h, sort2_numP]
  rfl

/-- An infinite distance may have become nan. -/
def SameHit (f : Flt) (e : EReal) : Prop := f = num e ∨ (f = nan ∧ e = ⊤)

theorem leafIntersectF_same (m : Mat4) (oid : ℕ) (p : Prim) (ray : Ray) :
    List.Forall₂ SameHit (leafIntersectF m oid p (RayF.of ray)).1 (leafIntersect m oid p ray).1 ∧
      (leafIntersectF m oid p (RayF.of ray)).2 = (leafIntersect m oid p ray).2 := by
  simp only [leafIntersectF, leafIntersect, leaf_of, and_true]
  rcases intersectF_or p (ray.map m) with h | ⟨h, h'⟩
  · rw [h, sort2_numP]
    exact .cons (.inl rfl) (.cons (.inl rfl) .nil)
  · rw [h, h']
    exact .cons (.inr ⟨rfl, by simp [sort2]⟩) (.cons (.inr ⟨rfl, by simp [sort2]⟩) .nil)

theorem not_still_of {ray : Ray} (h3 : ray.d 3 = 0) (h : ray.d ≠ 0) : ¬ ray.still := by
  intro hs
  apply h
  unfold Ray.still at hs
  funext i
  fin_cases i
  · show ray.d 0 = 0
    nlinarith [sq_nonneg (ray.d 0), sq_nonneg (ray.d 1), sq_nonneg (ray.d 2)]
  · show ray.d 1 = 0
    nlinarith [sq_nonneg (ray.d 0), sq_nonneg (ray.d 1), sq_nonneg (ray.d 2)]
  · show ray.d 2 = 0
    nlinarith [sq_nonneg (ray.d 0), sq_nonneg (ray.d 1), sq_nonneg (ray.d 2)]
  · exact h3

theorem map_not_still {fuel : ℕ} {h : Heap} (hr : Placed argsort fuel h) {a : ℕ} (ha : a < h.size) {ray : Ray} (h3 : ray.d 3 = 0) (hd : ray.d ≠ 0) :
    ¬ (ray.map (h.obj a).objT).still := by
  have hA := hr.affine argsort ha
  have hi := reaches_inv argsort empty_inv hr.reaches
  have hobj : (h.obj a).objT = (h.obj a).world⁻¹ := (hi.synced a ha).2.1
  have hu : IsUnit (h.obj a).world.det := isUnit_iff_ne_zero.2 hA.2
  have e : (h.obj a).world *ᵥ ((h.obj a).objT *ᵥ ray.d) = ray.d := by
    rw [hobj, mulVec_mulVec, mul_nonsing_inv _ hu, one_mulVec]
  apply not_still_of
  · show ((h.obj a).objT *ᵥ ray.d) 3 = 0
    rw [← affine_three hA ((h.obj a).objT *ᵥ ray.d), e, h3]
  · intro hz
    have hz' : (h.obj a).objT *ᵥ ray.d = 0 := hz
    rw [hz', mulVec_zero] at e
    exact hd e.symm

/-- **Objects.** For a ray that is not extinct, hits and ids are the same in both models: no nan. -/
theorem intersectObjF_of (hF : ∀ xs, argsortF (xs.map num) = argsort xs) {fuel : ℕ} {h : Heap} (hr : Placed argsort fuel h) {ray : Ray} (h3 : ray.d 3 = 0)
    (hd : ray.d ≠ 0) : ∀ (depth a : ℕ), a < h.size →
      intersectObjF argsortF depth h a (RayF.of ray) = ((intersectObj argsort depth h a ray).1.map num, (intersectObj argsort depth h a ray).2) := by
  have hi := reaches_inv argsort empty_inv hr.reaches
  intro depth
  induction depth with
  | zero => intro a _; rfl
  | succ depth ih =>
    intro a ha
    unfold intersectObjF intersectObj
    cases hk : (h.obj a).kind with
    | prim p => exact leafIntersectF_of (map_not_still hr ha h3 hd) _ p
    | csg op l r =>
      have hl := (hi.children a l ha ⟨op, l, r, hk, Or.inl rfl⟩).1.trans ha
      have hr' := (hi.children a r ha ⟨op, l, r, hk, Or.inr rfl⟩).1.trans ha
      simp only [ih l hl, ih r hr', boxPassesF_of, csgCombineF_num hF, List.length_map]
      split
      · rfl
      · simp [inf]
    | _ => rfl

theorem intersectObjF_length (hF : ∀ xs, argsortF (xs.map num) = argsort xs) {fuel : ℕ} {h : Heap} (hr : Placed argsort fuel h) {ray : Ray}
    (hd : ray.d = 0) : ∀ (depth a : ℕ), a < h.size →
      List.Forall₂ SameHit (intersectObjF argsortF depth h a (RayF.of ray)).1 (intersectObj argsort depth h a ray).1 ∧
        (intersectObjF argsortF depth h a (RayF.of ray)).2 = (intersectObj argsort depth h a ray).2 := by
  have hi := reaches_inv argsort empty_inv hr.reaches
  intro depth
  induction depth with
  | zero => intro a _; exact ⟨.nil, rfl⟩
  | succ depth ih =>
    intro a ha
    unfold intersectObjF intersectObj
    cases hk : (h.obj a).kind with
    | prim p => exact leafIntersectF_same _ _ p ray
    | csg op l r =>
      have hl := (hi.children a l ha ⟨op, l, r, hk, Or.inl rfl⟩).1.trans ha
      have hr' := (hi.children a r ha ⟨op, l, r, hk, Or.inr rfl⟩).1.trans ha
      have hb : ¬ boxPasses (h.obj a).aobb ray := by
        have hs : ∀ (span : EReal × EReal) (o : ℝ), (slab span o 0).1 = ⊥ ∧ (slab span o 0).2 = ⊤ ∨ (slab span o 0).1 = ⊤ ∧ (slab span o 0).2 = ⊤ := by
          intro span o
          have h0 : isclose0 0 := by norm_num [isclose0]
          simp only [slab, h0, not_true_eq_false, if_false, sort2]
          split
          · left; simp
          · right; simp
        have hz : ∀ i, ray.d i = 0 := fun i => by rw [hd]; rfl
        intro hp
        simp only [boxPasses, boxIntersect, hz] at hp
        rcases hs ((h.obj a).aobb 0) (ray.o 0) with ⟨e0, f0⟩ | ⟨e0, f0⟩ <;> rcases hs ((h.obj a).aobb 1) (ray.o 1) with ⟨e1, f1⟩ | ⟨e1, f1⟩ <;>
          rcases hs ((h.obj a).aobb 2) (ray.o 2) with ⟨e2, f2⟩ | ⟨e2, f2⟩ <;> simp [e0, e1, e2, f0, f1, f2] at hp
      simp only [boxPassesF_of, if_neg hb, (ih l hl).1.length_eq, (ih r hr').1.length_eq]
      refine ⟨?_, trivial⟩
      induction (intersectObj argsort depth h l ray).1.length + (intersectObj argsort depth h r ray).1.length with
      | zero => exact .nil
      | succ n ihn => exact .cons (.inl rfl) ihn
    | _ => exact ⟨.nil, rfl⟩

theorem intersectObjF_same (hF : ∀ xs, argsortF (xs.map num) = argsort xs) {fuel : ℕ} {h : Heap} (hr : Placed argsort fuel h) {ray : Ray} (h3 : ray.d 3 = 0)
    (depth : ℕ) {a : ℕ} (ha : a < h.size) :
    List.Forall₂ SameHit (intersectObjF argsortF depth h a (RayF.of ray)).1 (intersectObj argsort depth h a ray).1 ∧
      (intersectObjF argsortF depth h a (RayF.of ray)).2 = (intersectObj argsort depth h a ray).2 := by
  by_cases hd : ray.d = 0
  · exact intersectObjF_length hF hr hd depth a ha
  · rw [intersectObjF_of hF hr h3 hd depth a ha]
    refine ⟨?_, rfl⟩
    simp only
    induction (intersectObj argsort depth h a ray).1 with
    | nil => exact .nil
    | cons x xs ih => exact .cons (.inl rfl) ih

/-! ### the nearest hit -/

theorem positiveHitF_same {f : Flt} {e : EReal} (h : SameHit f e) : positiveHitF f = num (positiveHit e) := by
  have h0 : re 0 = num 0 := rfl
  rcases h with rfl | ⟨rfl, rfl⟩
  · simp only [positiveHitF, positiveHit, h0, num_lt]
    split <;> rfl
  · simp [positiveHitF, positiveHit, not_lt_nan, inf]

theorem argminF_num (xs : List EReal) : argminF (xs.map num) = argmin xs := by
  have hf : (xs.map num).foldr Flt.min inf = num (xs.foldr Min.min (⊤ : EReal)) := by
    induction xs with
    | nil => rfl
    | cons x xs ih => rw [List.map_cons, List.foldr_cons, ih]; rfl
  rw [argminF, hf, argmin]
  generalize xs.foldr Min.min (⊤ : EReal) = m
  clear hf
  induction xs with
  | nil => rfl
  | cons x xs ih =>
    simp only [List.map_cons, List.idxOf_cons, ih]
    have : (num x == num m) = (x == m) := by
      by_cases h : x = m
      · subst h; simp
      · have h' : num x ≠ num m := fun hh => h (Flt.num.inj hh)
        rw [beq_eq_false_iff_ne.2 h, beq_eq_false_iff_ne.2 h']
    rw [this]

theorem nearestHitF_same {f : List Flt × List ℤ} {e : List EReal × List ℤ} (h : List.Forall₂ SameHit f.1 e.1) (h2 : f.2 = e.2) :
    nearestHitF f = (num (nearestHit e).1, (nearestHit e).2) := by
  have hm : f.1.map positiveHitF = (e.1.map positiveHit).map num := by
    obtain ⟨f, fs⟩ := f
    obtain ⟨e, es⟩ := e
    simp only at h ⊢
    clear h2
    induction h with
    | nil => rfl
    | cons h1 _ ih => simp only [List.map_cons, positiveHitF_same h1, ih]
  simp only [nearestHitF, nearestHit, hm, argminF_num, h2, Prod.mk.injEq, and_true]
  simp only [List.getD_eq_getElem?_getD, List.getElem?_map]
  cases e.1[argmin (List.map positiveHit e.1)]? <;> rfl

theorem hitOfF_of (hF : ∀ xs, argsortF (xs.map num) = argsort xs) {fuel : ℕ} {s : Scene} (hr : Placed argsort fuel s.heap) {objs : List ℕ}
    (hlt : ∀ a ∈ objs, a < s.heap.size) (depth : ℕ) {ray : Ray} (h3 : ray.d 3 = 0) :
    hitOfF (objs.map (s.componentF argsortF depth)) (RayF.of ray) =
      (num (hitOf (objs.map (s.component argsort depth)) ray).1, (hitOf (objs.map (s.component argsort depth)) ray).2) := by
  simp only [hitOfF, hitOf, List.foldl_map]
  have key : ∀ (objs : List ℕ), (∀ a ∈ objs, a < s.heap.size) → ∀ acc : EReal × ℤ,
      objs.foldl (fun acc a => let n := nearestHitF ((s.componentF argsortF depth a).intersect (RayF.of ray)); if n.1 < acc.1 then n else acc) (num acc.1, acc.2) =
      (num (objs.foldl (fun acc a => let n := nearestHit ((s.component argsort depth a).intersect ray); if n.1 < acc.1 then n else acc) acc).1,
        (objs.foldl (fun acc a => let n := nearestHit ((s.component argsort depth a).intersect ray); if n.1 < acc.1 then n else acc) acc).2) := by
    intro objs
    induction objs with
    | nil => intro _ acc; rfl
    | cons a objs ih =>
      intro hlt acc
      have hn : nearestHitF ((s.componentF argsortF depth a).intersect (RayF.of ray)) =
          (num (nearestHit ((s.component argsort depth a).intersect ray)).1, (nearestHit ((s.component argsort depth a).intersect ray)).2) := by
        obtain ⟨h1, h2⟩ := intersectObjF_same hF hr h3 depth (hlt a (by simp))
        exact nearestHitF_same h1 h2
      simp only [List.foldl_cons, hn, num_lt]
      rw [← ih (fun b hb => hlt b (by simp [hb]))]
      congr 1
      split <;> rfl
  exact key objs hlt (⊤, -1)

/-! ### normals -/

theorem cubeNormalCompF_of (span : ℝ × ℝ) (x : ℝ) : cubeNormalCompF span (re x) = re (cubeNormalComp span x) := by
  simp only [cubeNormalCompF, cubeNormalComp, isclose_re]
  split
  · rfl
  · split <;> rfl

theorem ofV_four (a b c d : ℝ) : (![re a, re b, re c, re d] : Vec4F) = ofV ![a, b, c, d] := by
  funext i
  fin_cases i <;> rfl

theorem norm_of_normalize {v : Vec4} (h : normalize v ≠ 0) : norm4 v ≠ 0 := by
  intro hz
  apply h
  funext i
  simp [normalize, hz]

theorem normalF_of {p : Prim} {x : Vec4} (h : p.normal x ≠ 0) : p.normalF (ofV x) = ofV (p.normal x) := by
  have key : ∀ a b c : ℝ, normalize ![a, b, c, 0] ≠ 0 → normalizeF ![re a, re b, re c, re 0] = ofV (normalize ![a, b, c, 0]) := by
    intro a b c hn
    rw [ofV_four, normalizeF_of (norm_of_normalize hn)]
  cases p with
  | sphere r => exact key _ _ _ h
  | paraboloid f l =>
    simp only [Prim.normalF, Prim.normal, ofV, isclose_re] at h ⊢
    split
    · rename_i hc
      rw [if_pos hc] at h
      exact key _ _ _ h
    · rename_i hc
      rw [if_neg hc] at h
      exact key _ _ _ h
  | plane w l => exact ofV_four _ _ _ _
  | cube a b =>
    simp only [Prim.normalF, Prim.normal, ofV, cubeNormalCompF_of] at h ⊢
    exact key _ _ _ h
  | cylinder r lo hi =>
    simp only [Prim.normalF, Prim.normal, ofV, isclose_re] at h ⊢
    split
    · rename_i hc
      rw [if_pos hc] at h
      exact key _ _ _ h
    · rename_i hc
      rw [if_neg hc] at h
      split
      · rename_i hc'
        rw [if_pos hc'] at h
        exact key _ _ _ h
      · rename_i hc'
        rw [if_neg hc'] at h
        exact key _ _ _ h

theorem worldNormalF_of {o : Obj} {p : Prim} {pos : Vec4} (h : worldNormal o p pos ≠ 0) : worldNormalF o p (ofV pos) = ofV (worldNormal o p pos) := by
  have h1 : normalize (zeroW (o.objTᵀ *ᵥ p.normal (o.objT *ᵥ pos))) ≠ 0 := by
    intro hz
    apply h
    rw [worldNormal, hz, smul_zero]
  have h2 : p.normal (o.objT *ᵥ pos) ≠ 0 := by
    intro hz
    apply norm_of_normalize h1
    rw [hz, mulVec_zero]
    simp [zeroW, norm4]
  have h3 := norm_of_normalize h1
  funext i
  simp only [worldNormalF, matF_of, normalF_of h2]
  have e : (![ofV (o.objTᵀ *ᵥ p.normal (o.objT *ᵥ pos)) 0, ofV (o.objTᵀ *ᵥ p.normal (o.objT *ᵥ pos)) 1, ofV (o.objTᵀ *ᵥ p.normal (o.objT *ᵥ pos)) 2, re 0] : Vec4F) =
      ofV (zeroW (o.objTᵀ *ᵥ p.normal (o.objT *ᵥ pos))) := ofV_four _ _ _ _
  rw [e, normalizeF_of h3]
  simp only [ofV, re_mul, worldNormal, Pi.smul_apply, smul_eq_mul]

/-- **Normals.** Where the model without nan has a normal, it is the normal in both. -/
theorem surfaceNormalF_of {h : Heap} {x : ℕ} {pos : Vec4} (hn : norm4 (surfaceNormal h x pos) = 1) : surfaceNormalF h x (ofV pos) = ofV (surfaceNormal h x pos) := by
  have h0 : surfaceNormal h x pos ≠ 0 := by
    intro hz
    rw [hz] at hn
    simp [norm4] at hn
  cases hk : (h.obj x).kind with
  | prim p =>
    simp only [surfaceNormal, hk] at h0
    simp only [surfaceNormalF, surfaceNormal, hk]
    exact worldNormalF_of h0
  | _ => simp [surfaceNormal, hk] at h0

/-! ### materials -/

/-- the wavelength is no resonance of the glass (`w² = c` divides by zero) -/
def IndexModel.Regular : IndexModel → ℝ → Prop
  | .basic _, _ => True
  | .sellmeier _ _ _ c1 c2 c3, w => w ^ 2 ≠ c1 ∧ w ^ 2 ≠ c2 ∧ w ^ 2 ≠ c3

theorem indexAtF_of {m : IndexModel} {w : ℝ} (hr : m.Regular w) (hp : 0 < m.indexAt w) : m.indexAtF (re w) = re (m.indexAt w) := by
  cases m with
  | basic n => rfl
  | sellmeier b1 b2 b3 c1 c2 c3 =>
    obtain ⟨h1, h2, h3⟩ := hr
    rw [pow_two] at h1 h2 h3
    simp only [IndexModel.indexAtF, IndexModel.indexAt, re_mul, re_sub, pow_two] at hp ⊢
    rw [re_div (sub_ne_zero.2 h1), re_div (sub_ne_zero.2 h2), re_div (sub_ne_zero.2 h3), re_add, re_add, re_add, re_sqrt (Real.sqrt_pos.1 hp).le]

theorem refractF_of {v n : Vec4} {n1 n2 : ℝ} (hv : norm4 v ≠ 0) (h2 : n2 ≠ 0) (ho : (refract v n n1 n2 1).2.1 ≠ 0) :
    refractF (ofV v) (ofV n) (re n1) (re n2) (re 1) = (ofV (refract v n n1 n2 1).2.1, re (refract v n n1 n2 1).2.2) := by
  have hneg : (fun i => -ofV n i) = ofV (-n) := by
    funext i
    simp only [ofV, re_neg, Pi.neg_apply]
  have e1 : ∀ q : Prop, (if q then re 1 else re n2) = re (if q then 1 else n2) := by intro q; split <;> rfl
  have e2 : ∀ q : Prop, (if q then ofV (-n) else ofV n) = ofV (if q then -n else n) := by intro q; split <;> rfl
  have e3 : ∀ (q : Prop) (a b : ℝ), (if q then re a else re b) = re (if q then a else b) := by intro q a b; split <;> rfl
  have e4 : ∀ (q : Prop) (a b : Vec4), (if q then ofV a else ofV b) = ofV (if q then a else b) := by intro q a b; split <;> rfl
  have hn2 : (if dot4 (normalize v) n > 0 then (1 : ℝ) else n2) ≠ 0 := by
    split
    · exact one_ne_zero
    · exact h2
  simp only [refract, refractIndex] at ho ⊢
  simp only [refractF, normalizeF_of hv, hneg, dotF_of, re_lt, e1, e2, e3, re_div hn2, re_mul, re_sub, re_max]
  rw [re_sqrt (le_max_left _ _)]
  simp only [gt_iff_lt, pow_two, re_sub] at ho ⊢
  generalize (if 0 < dot4 (normalize v) n then (1 : ℝ) else n2) = m at ho ⊢
  generalize (if 0 < dot4 (normalize v) n then dot4 (normalize v) n else dot4 (normalize v) (-n)) = c at ho ⊢
  generalize (if 0 < dot4 (normalize v) n then -n else n) = nn at ho ⊢
  generalize 1 - n1 / m * (n1 / m) * (1 - c * c) = rad at ho ⊢
  have ea : (fun i => re (n1 / m) * ofV (normalize v) i + re (n1 / m * c - √(max 0 rad)) * ofV nn i) =
      ofV fun i => n1 / m * normalize v i + (n1 / m * c - √(max 0 rad)) * nn i := by
    funext i
    simp only [ofV, re_mul, re_add]
  have eb : (fun i => ofV (normalize v) i + re (2 * c) * ofV nn i) = ofV fun i => normalize v i + 2 * c * nn i := by
    funext i
    simp only [ofV, re_mul, re_add]
  rw [ea, eb, e4, normalizeF_of (norm_of_normalize ho)]

end PyRayT
