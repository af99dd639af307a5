import Verif.Proofs.View
import Verif.Props.Reverse

/-!
# Property C99: an object looks the same from every side

Composites are intersected ray by ray, by sorting and masking the distances of their parts. Here: what is found at a point of a surface does not
depend on the ray that finds it.
-/

namespace PyRayT

open Classical Matrix Spec Topology Filter

variable (argsort : List EReal → List ℕ)

theorem mem_surfaceIds {h : Heap} {a : ℕ} {s : Solid} (hrep : Represents h a s) : ∀ {depth : ℕ}, s.depth ≤ depth → ∀ {y : ℕ} {p : Prim},
    Under h a y → (h.obj y).kind = .prim p → ((h.obj y).oid, y) ∈ surfaceIds depth h a := by
  induction hrep with
  | @leaf a p' hk =>
    intro depth hd y p hu hy
    obtain ⟨n, rfl⟩ : ∃ n, depth = n + 1 := ⟨depth - 1, by simp [Solid.depth] at hd; omega⟩
    rcases hu.inv with rfl | ⟨c, ⟨op, l, r, hc, -⟩, -⟩
    · simp [surfaceIds, hk]
    · rw [hk] at hc; cases hc
  | @node a l r op sl sr hk hl hr ihl ihr =>
    intro depth hd y p hu hy
    obtain ⟨n, rfl⟩ : ∃ n, depth = n + 1 := ⟨depth - 1, by simp [Solid.depth] at hd; omega⟩
    have dl : sl.depth ≤ n := by simp [Solid.depth] at hd; omega
    have dr : sr.depth ≤ n := by simp [Solid.depth] at hd; omega
    rcases hu.inv with rfl | ⟨c, ⟨op', l', r', hc, hcc⟩, hu'⟩
    · rw [hk] at hy; cases hy
    · rw [hk] at hc
      cases hc
      simp only [surfaceIds, hk, List.mem_append]
      rcases hcc with rfl | rfl
      · exact .inl (ihl dl hu' hy)
      · exact .inr (ihr dr hu' hy)

theorem once_of_nodup {h : Heap} {x : ℕ} {p : Prim} (hx : (h.obj x).kind = .prim p) {a : ℕ} {s : Solid} (hrep : Represents h a s) :
    ∀ {depth : ℕ}, s.depth ≤ depth → ((surfaceIds depth h a).map Prod.snd).Nodup →
    ∀ n op l r, Under h a n → (h.obj n).kind = .csg op l r → Under h l x → ¬ Under h r x := by
  induction hrep with
  | @leaf a p' hk =>
    intro depth hd hnd n op l r hu hn
    rcases hu.inv with rfl | ⟨c, ⟨op, l, r, hc, -⟩, -⟩
    · rw [hk] at hn; cases hn
    · rw [hk] at hc; cases hc
  | @node a l r op sl sr hk hl hr ihl ihr =>
    intro depth hd hnd n op' l' r' hu hn
    obtain ⟨m, rfl⟩ : ∃ n, depth = n + 1 := ⟨depth - 1, by simp [Solid.depth] at hd; omega⟩
    have dl : sl.depth ≤ m := by simp [Solid.depth] at hd; omega
    have dr : sr.depth ≤ m := by simp [Solid.depth] at hd; omega
    simp only [surfaceIds, hk, List.map_append, List.nodup_append] at hnd
    rcases hu.inv with rfl | ⟨c, ⟨op'', l'', r'', hc, hcc⟩, hu'⟩
    · rw [hk] at hn
      cases hn
      intro h1 h2
      exact hnd.2.2 x (List.mem_map.2 ⟨_, mem_surfaceIds hl dl h1 hx, rfl⟩) x (List.mem_map.2 ⟨_, mem_surfaceIds hr dr h2 hx, rfl⟩) rfl
    · rw [hk] at hc
      cases hc
      rcases hcc with rfl | rfl
      · exact ihl dl hnd.1 n op' l' r' hu' hn
      · exact ihr dr hnd.2.1 n op' l' r' hu' hn

theorem under_all {P : Prim → Mat4 → Prop} {h : Heap} {a : ℕ} {s : Solid} (hrep : Represents h a s) (hall : s.All P) {y : ℕ} {p : Prim}
    (hu : Under h a y) (hy : (h.obj y).kind = .prim p) : P p (h.obj y).world := by
  induction hrep with
  | @leaf a p' hk =>
    rcases hu.inv with rfl | ⟨c, ⟨op, l, r, hc, -⟩, -⟩
    · rw [hk] at hy; cases hy; exact hall
    · rw [hk] at hc; cases hc
  | @node a l r op sl sr hk hl hr ihl ihr =>
    rcases hu.inv with rfl | ⟨c, ⟨op', l', r', hc, hcc⟩, hu'⟩
    · rw [hk] at hy; cases hy
    · rw [hk] at hc
      cases hc
      rcases hcc with rfl | rfl
      · exact ihl hall.1 hu'
      · exact ihr hall.2 hu'

/-- **C99.** An object of any history with up-to-date boxes and unions of overlapping boxes (C04), of any depth, in which no surface occurs twice.
If it reports a hit at a point to one ray, and no surface of the object but `x` passes through this point, then it reports a hit of `x` at this
point to every other ray that goes through the surface `x` there (from its inside to its outside or back). -/
theorem C99_any_side (ha : IsStableArgsort argsort) (fuel : ℕ) (h : Heap) (hr : Reaches argsort fuel Heap.empty h)
    (a : ℕ) (hlt : a < h.size) (s : Solid) (hrep : Represents h a s)
    (hbox : ∀ x k op l r, Chain h a x k → (h.obj x).kind = .csg op l r →
      (h.obj x).aobb = ((newCsg argsort h op l r).obj h.size).aobb)
    (hov : ∀ x k l r, Chain h a x k → (h.obj x).kind = .csg .union l r → Overlap (h.obj l).aobb (h.obj r).aobb)
    (depth : ℕ) (hd : s.depth ≤ depth) (hnd : ((surfaceIds depth h a).map Prod.snd).Nodup)
    (r1 r2 : Ray) (g1 : GoodRay r1) (g2 : GoodRay r2)
    (hleaf : s.All fun p w => (p.Valid ∧ Affine w) ∧ Sees p (r1.map w⁻¹) ∧ Sees p (r2.map w⁻¹))
    (t1 t2 : ℝ) (hq : r1.at t1 = r2.at t2) (x id : ℕ) (hx : (id, x) ∈ surfaceIds depth h a) (p : Prim) (hk : (h.obj x).kind = .prim p)
    (h1 : (t1 : EReal) ∈ (intersectObj argsort depth h a r1).1)
    (hother : ∀ y id' p', (id', y) ∈ surfaceIds depth h a → y ≠ x → (h.obj y).kind = .prim p' →
      (Solid.leaf p' (h.obj y).world).Interior (r2.at t2) ∨ (Solid.leaf p' (h.obj y).world).Outside (r2.at t2))
    (hp : Pierces (.leaf p (h.obj x).world) r2 t2) : Reported (intersectObj argsort depth h a r2) t2 id := by
  have hi := reaches_inv argsort empty_inv hr
  have hb := boxesOk_of argsort hr hlt hbox hov
  have hsync : ∀ x p, Under h a x → (h.obj x).kind = .prim p → (h.obj x).objT = (h.obj x).world⁻¹ :=
    fun x p hu _ => (hi.synced x (lt_of_le_of_lt (hu.le hi.toStruct hlt) hlt)).2.1
  have leaf1 : s.All fun p w => (p.Valid ∧ Affine w) ∧ Sees p (r1.map w⁻¹) := hleaf.imp fun p w h => ⟨h.1, h.2.1⟩
  have leaf2 : s.All fun p w => (p.Valid ∧ Affine w) ∧ Sees p (r2.map w⁻¹) := hleaf.imp fun p w h => ⟨h.1, h.2.2⟩
  have hbd := intersectObj_boundary argsort ha hrep g1 leaf1 hb hsync depth hd t1 h1
  rw [hq] at hbd
  have hls := local_shape hk hrep (hleaf.imp fun p w h => h.1.2.2) (once_of_nodup hk hrep hd hnd)
    (fun y p' hu hne hy => hother y _ p' (mem_surfaceIds hrep hd hu hy) hne hy)
  -- just before and just after the point, the second ray is on different sides of the boundary of the composite
  have hside : (Soon fun u => s.Interior (r2.at (t2 - u)) ∧ s.Outside (r2.at (t2 + u))) ∨
      (Soon fun u => s.Outside (r2.at (t2 - u)) ∧ s.Interior (r2.at (t2 + u))) := by
    rcases hls with h | h | ⟨-, h⟩ | ⟨-, h⟩
    · exact absurd h hbd.1
    · exact absurd h hbd.2
    · rcases hp with hp | hp
      · exact .inl ((hp.and (eventually_soon h)).imp fun u _ h => ⟨h.2.1.1 h.1.1, h.2.2.2 h.1.2⟩)
      · exact .inr ((hp.and (eventually_soon h)).imp fun u _ h => ⟨h.2.1.2 h.1.1, h.2.2.1 h.1.2⟩)
    · rcases hp with hp | hp
      · exact .inr ((hp.and (eventually_soon h)).imp fun u _ h => ⟨h.2.1.1 h.1.1, h.2.2.2 h.1.2⟩)
      · exact .inl ((hp.and (eventually_soon h)).imp fun u _ h => ⟨h.2.1.2 h.1.1, h.2.2.1 h.1.2⟩)
  have k := intersectObj_inside argsort ha.1 hrep g2 leaf2 hb hsync depth hd
  have hne : ∃ ε : ℝ, 0 < ε ∧ (¬ (InsideAt (intersectObj argsort depth h a r2).1 ((t2 - ε : ℝ) : EReal) ↔
        InsideAt (intersectObj argsort depth h a r2).1 ((t2 + ε : ℝ) : EReal))) ∧
      ∀ u, 0 < u → u ≤ ε → (s.Interior (r2.at (t2 - u)) ∨ s.Outside (r2.at (t2 - u))) ∧ (s.Interior (r2.at (t2 + u)) ∨ s.Outside (r2.at (t2 + u))) := by
    rcases hside with ⟨ε, he, h⟩ | ⟨ε, he, h⟩
    · refine ⟨ε / 2, by linarith, ?_, fun u h0 h1 => ⟨.inl (h u h0 (by linarith)).1, .inr (h u h0 (by linarith)).2⟩⟩
      have := h (ε / 2) (by linarith) (by linarith)
      exact fun e => (k _).2 this.2 (e.1 ((k _).1 this.1))
    · refine ⟨ε / 2, by linarith, ?_, fun u h0 h1 => ⟨.inr (h u h0 (by linarith)).1, .inl (h u h0 (by linarith)).2⟩⟩
      have := h (ε / 2) (by linarith) (by linarith)
      exact fun e => (k _).2 this.1 (e.2 ((k _).1 this.2))
  obtain ⟨ε, he, hne, hdec⟩ := hne
  obtain ⟨v, hv, hv1, hv2⟩ := crossing_hit (by linarith) hne
  have hbv := intersectObj_boundary argsort ha hrep g2 leaf2 hb hsync depth hd v hv
  have ev : v = t2 := by
    rcases lt_trichotomy v t2 with hlt' | e | hgt
    · have := (hdec (t2 - v) (by linarith) (by linarith)).1
      rw [show t2 - (t2 - v) = v by ring] at this
      exact (this.elim hbv.1 hbv.2).elim
    · exact e
    · have := (hdec (v - t2) (by linarith) (by linarith)).2
      rw [show t2 + (v - t2) = v by ring] at this
      exact (this.elim hbv.1 hbv.2).elim
  subst ev
  obtain ⟨j, hj⟩ := List.mem_iff_getElem?.1 hv
  have hlen := (intersectObj_shape argsort ha.1 h r2 depth a).2.2
  obtain ⟨k', hk'⟩ : ∃ k', (intersectObj argsort depth h a r2).2[j]? = some k' := by
    have : j < (intersectObj argsort depth h a r2).2.length := by
      rw [hlen]; exact (List.getElem?_eq_some_iff.1 hj).1
    exact ⟨_, List.getElem?_eq_getElem this⟩
  obtain ⟨y, p', hu, hm, hy, e, hmem⟩ := intersectObj_label argsort ha.1 h r2 depth a j v k' hj (EReal.coe_ne_top v) hk'
  refine ⟨j, hj, ?_⟩
  rw [hk', e]
  by_cases hyx : y = x
  · subst hyx
    rw [show id = (h.obj y).oid from (surfaceIds_spec hi depth a hlt _ hx).2.1]
  · exfalso
    have hA : Affine (h.obj y).world ∧ Sees p' (r2.map (h.obj y).world⁻¹) := by
      have := under_all hrep leaf2 hu hy
      exact ⟨this.1.2, this.2⟩
    rw [hsync y p' hu hy] at hmem
    have := leaf_boundary hA.1.2 hA.2 _ v hmem
    exact (hother y _ p' hm hyx hy).elim this.1 this.2

/-- A ray that is not tangent to a surface goes through it. -/
theorem pierces_of_normal {fuel : ℕ} {h : Heap} (hr : Reaches argsort fuel Heap.empty h) {x : ℕ} (hx : x < h.size) {p : Prim}
    (hk : (h.obj x).kind = .prim p) (hw : (h.obj x).world 3 = ![0, 0, 0, 1]) {ray : Ray} {t : ℝ} (hd3 : ray.d 3 = 0)
    (hs : SmoothPoint p ((h.obj x).world⁻¹ *ᵥ ray.at t)) (hn : dot4 (surfaceNormal h x (ray.at t)) ray.d ≠ 0) :
    Pierces (.leaf p (h.obj x).world) ray t := by
  have hi := reaches_inv argsort empty_inv hr
  have hu : IsUnit (h.obj x).world.det := isUnit_iff_ne_zero.2 (hi.synced x hx).1
  obtain ⟨n, ⟨-, -, h1⟩, h2, h3⟩ := C12_normals_partial argsort fuel h hr x hx p hk hw _ hs
  rw [mulVec_mulVec, mul_nonsing_inv _ hu, one_mulVec] at h1 h2 h3
  have hne : dot4 n ray.d ≠ 0 := by
    intro e
    apply hn
    simp only [surfaceNormal, hk]
    by_cases hc : ∀ c k, c < h.size → Chain h c x k → k = 0
    · rw [h2 hc, e]
    · push Not at hc
      obtain ⟨c, k, hc1, hc2, hc3⟩ := hc
      rw [h3 c k hc1 hc2 (by omega)]
      simp only [dot4, Pi.neg_apply] at e ⊢
      linarith
  have hat : ∀ u : ℝ, ray.at t + u • ray.d = ray.at (t + u) := fun u => by
    funext i; simp only [Pi.add_apply, Pi.smul_apply, smul_eq_mul, Ray.at]; ring
  have hat' : ∀ u : ℝ, ray.at t + u • (-ray.d) = ray.at (t - u) := fun u => by
    funext i; simp only [Pi.add_apply, Pi.smul_apply, smul_eq_mul, Ray.at, Pi.neg_apply]; ring
  have hneg : dot4 n (-ray.d) = -dot4 n ray.d := by simp only [dot4, Pi.neg_apply]; ring
  obtain ⟨a1, a2⟩ := h1 ray.d hd3
  obtain ⟨b1, b2⟩ := h1 (-ray.d) (by simp [hd3])
  rw [hneg] at b1 b2
  simp only [hat, hat', not_not] at a1 a2 b1 b2
  rcases lt_or_gt_of_ne hne with hlt | hgt
  · exact .inr ((b2 (by linarith)).and (a1 hlt))
  · exact .inl ((b1 (by linarith)).and (a2 hgt))

theorem under_of_surfaceIds {h : Heap} : ∀ (depth a : ℕ), ∀ e ∈ surfaceIds depth h a, Under h a e.2 := by
  intro depth
  induction depth with
  | zero => intro a e he; cases he
  | succ depth ih =>
    intro a e he
    cases hk : (h.obj a).kind with
    | csg op l r =>
      simp only [surfaceIds, hk, List.mem_append] at he
      have up : ∀ {c y : ℕ}, IsParent h a c → Under h c y → Under h a y := by
        intro c y hp hu
        induction hu with
        | refl => exact .step .refl hp
        | step _ hp' ih => exact .step ih hp'
      rcases he with he | he
      · exact up ⟨op, l, r, hk, Or.inl rfl⟩ (ih l e he)
      · exact up ⟨op, l, r, hk, Or.inr rfl⟩ (ih r e he)
    | prim p =>
      simp only [surfaceIds, hk, List.mem_singleton] at he
      subst he
      exact .refl
    | plain => simp [surfaceIds, hk] at he
    | group els => simp [surfaceIds, hk] at he

/-- no surface occurs twice in an object of a tidy history -/
theorem surfaceIds_nodup_of_tidy {h : Heap} (hi : Struct h) (ht : Tidy h) : ∀ (depth a : ℕ), a < h.size → ((surfaceIds depth h a).map Prod.snd).Nodup := by
  intro depth
  induction depth with
  | zero => intro a _; exact List.nodup_nil
  | succ depth ih =>
    intro a hlt
    cases hk : (h.obj a).kind with
    | csg op l r =>
      have pl : IsParent h a l := ⟨op, l, r, hk, Or.inl rfl⟩
      have pr : IsParent h a r := ⟨op, l, r, hk, Or.inr rfl⟩
      have cl := (hi.children a l hlt pl).1
      have cr := (hi.children a r hlt pr).1
      simp only [surfaceIds, hk, List.map_append, List.nodup_append]
      refine ⟨ih l (by omega), ih r (by omega), ?_⟩
      rintro x hx y hy rfl
      obtain ⟨e, he, rfl⟩ := List.mem_map.1 hx
      obtain ⟨e', he', hee⟩ := List.mem_map.1 hy
      have h2 := under_of_surfaceIds depth r e' he'
      rw [hee] at h2
      exact under_disjoint hi ht hlt hk (under_of_surfaceIds depth l e he) h2
    | prim p => simp [surfaceIds, hk]
    | plain => simp [surfaceIds, hk]
    | group els => simp [surfaceIds, hk]

/-- **C99, not tangent.** The same for histories in which no part was moved after it was combined: what is reported to one ray at a smooth point of
a surface is reported to every ray that is not tangent to it there. -/
theorem C99_not_tangent (ha : IsStableArgsort argsort) (fuel : ℕ) (h : Heap) (hr : TidyReaches argsort fuel Heap.empty h)
    (a : ℕ) (hlt : a < h.size) (s : Solid) (hrep : Represents h a s)
    (hov : ∀ x k l r, Chain h a x k → (h.obj x).kind = .csg .union l r → Overlap (h.obj l).aobb (h.obj r).aobb)
    (depth : ℕ) (hd : s.depth ≤ depth) (r1 r2 : Ray) (g1 : GoodRay r1) (g2 : GoodRay r2)
    (hleaf : s.All fun p w => (p.Valid ∧ Affine w) ∧ Sees p (r1.map w⁻¹) ∧ Sees p (r2.map w⁻¹))
    (t1 t2 : ℝ) (hq : r1.at t1 = r2.at t2) (x id : ℕ) (hx : (id, x) ∈ surfaceIds depth h a) (p : Prim) (hk : (h.obj x).kind = .prim p)
    (h1 : (t1 : EReal) ∈ (intersectObj argsort depth h a r1).1)
    (hother : ∀ y id' p', (id', y) ∈ surfaceIds depth h a → y ≠ x → (h.obj y).kind = .prim p' →
      (Solid.leaf p' (h.obj y).world).Interior (r2.at t2) ∨ (Solid.leaf p' (h.obj y).world).Outside (r2.at t2))
    (hsm : SmoothPoint p ((h.obj x).world⁻¹ *ᵥ r2.at t2)) (hn : dot4 (surfaceNormal h x (r2.at t2)) r2.d ≠ 0) :
    Reported (intersectObj argsort depth h a r2) t2 id := by
  have hre := TidyReaches.reaches argsort hr
  have hi := reaches_inv argsort empty_inv hre
  have hT := (tidyReaches_tidy argsort empty_inv (empty_tidy argsort).1 (empty_tidy argsort).2 hr).1
  have hxl := (surfaceIds_spec hi depth a hlt _ hx).1
  have hw : (h.obj x).world 3 = ![0, 0, 0, 1] :=
    (under_all hrep hleaf (under_of_surfaceIds depth a _ hx) hk).1.2.1
  exact C99_any_side argsort ha fuel h hre a hlt s hrep
    (fun y k op l r hc hy => C19_tidy_partial argsort fuel h hr y (lt_of_le_of_lt ((chain_under hc).le hi.toStruct hlt) hlt) op l r hy) hov depth hd
    (surfaceIds_nodup_of_tidy hi.toStruct hT depth a hlt) r1 r2 g1 g2 hleaf t1 t2 hq x id hx p hk h1 hother
    (pierces_of_normal argsort hre hxl hk hw g2.d3 hsm hn)

section
variable {argsort} {fuel : ℕ} {s : Scene} {objs : List ℕ} {depth : ℕ}

/-- **C99 and C98.** The condition `there` of `Spec.Crossing` holds for consecutive rows of every ray whose next row is not tangent to the surface:
looking back along it, the tracer finds the surface that the ray came from, in the point it came from. -/
theorem C98_there (ha : IsStableArgsort argsort) {sources : List (ℕ → List Col)} {m : ℕ} {limit : ℤ}
    (b : Bench argsort fuel s objs depth sources m) {k : ℕ} {f : Tracer}
    (ht : Tracer.Traces k (Tracer.new sources (objs.map (s.component argsort depth)) m limit) f) {r r' : Row} (hr : r ∈ f.frame)
    (hr' : r' ∈ f.frame) (hf : Follows r r') (g1 : GoodRay (rowRay r)) (g2 : GoodRay (rowRay r'))
    (hobj : ∀ a ∈ objs, ∃ S, Represents s.heap a S ∧ S.depth ≤ depth ∧
      (S.All fun p w => (p.Valid ∧ Affine w) ∧ Sees p ((rowRay r).map w⁻¹) ∧ Sees p ((rowRay r').map w⁻¹)) ∧
      (∀ x k op l r, Chain s.heap a x k → (s.heap.obj x).kind = .csg op l r →
        (s.heap.obj x).aobb = ((newCsg argsort s.heap op l r).obj s.heap.size).aobb) ∧
      ∀ x k l r, Chain s.heap a x k → (s.heap.obj x).kind = .csg .union l r → Overlap (s.heap.obj l).aobb (s.heap.obj r).aobb)
    (hsmooth : ∀ a ∈ objs, ∀ x id p, (id, x) ∈ surfaceIds depth s.heap a → r.surface = (id : ℤ) → (s.heap.obj x).kind = .prim p →
      SmoothPoint p ((s.heap.obj x).world⁻¹ *ᵥ r.finish) ∧ dot4 (surfaceNormal s.heap x r.finish) r'.dir ≠ 0)
    (hother : ∀ a ∈ objs, ∀ y id p, (id, y) ∈ surfaceIds depth s.heap a → r.surface ≠ (id : ℤ) → (s.heap.obj y).kind = .prim p →
      (Solid.leaf p (s.heap.obj y).world).Interior r.finish ∨ (Solid.leaf p (s.heap.obj y).world).Outside r.finish) :
    ∃ a ∈ objs, Reported (intersectObj argsort depth s.heap a (rowRay r')) (-1e-6) r.surface := by
  have ok := b.ok ha.1 limit
  have hi := reaches_inv argsort empty_inv b.history.reaches
  obtain ⟨d, -, hn, hst⟩ := C28_segment ok ht r hr
  obtain ⟨hconn, -⟩ := C28_connected ok ht r r' hr hr' hf.1 hf.2
  have e1 : (rowRay r).at d = r.finish := by
    funext q
    fin_cases q
    · simpa [Ray.at, rowRay, point, vector, Row.finish] using (hst 0).symm
    · simpa [Ray.at, rowRay, point, vector, Row.finish] using (hst 1).symm
    · simpa [Ray.at, rowRay, point, vector, Row.finish] using (hst 2).symm
    · simp [Ray.at, rowRay, point, vector, Row.finish]
  have hoff : (Tracer.new sources (objs.map (s.component argsort depth)) m limit).offset = 1e-6 := rfl
  rw [hoff] at hconn
  have e2 : (rowRay r').at (-1e-6) = r.finish := by
    have h0 := hconn 0
    have h1 := hconn 1
    have h2 := hconn 2
    funext q
    fin_cases q
    · simp [Ray.at, rowRay, point, vector, Row.finish, h0]
    · simp [Ray.at, rowRay, point, vector, Row.finish, h1]
    · simp [Ray.at, rowRay, point, vector, Row.finish, h2]
    · simp [Ray.at, rowRay, point, vector, Row.finish]
  obtain ⟨-, -, j, c, i, h1, -, h3, -, h5⟩ := hn
  obtain ⟨a, haa, rfl⟩ := List.mem_map.1 (List.mem_of_getElem? h1)
  obtain ⟨x, p, -, hm, hk, e, -⟩ := intersectObj_label argsort ha.1 s.heap (rowRay r) depth a i d r.surface h3 (EReal.coe_ne_top d) h5
  obtain ⟨S, k1, k2, k3, k4, k5⟩ := hobj a haa
  obtain ⟨s1, s2⟩ := hsmooth a haa x _ p hm e hk
  have hxl := (surfaceIds_spec hi depth a (b.exist a haa) _ hm).1
  refine ⟨a, haa, ?_⟩
  rw [e]
  refine C99_any_side argsort ha fuel s.heap b.history.reaches a (b.exist a haa) S k1 k4 k5 depth k2
    ((List.nodup_flatMap.1 b.distinct).1 a haa) (rowRay r) (rowRay r') g1 g2 k3 d _ (e1.trans e2.symm) x _ hm p hk (List.mem_of_getElem? h3) ?_ ?_
  · intro y id' p' hy hne hky
    rw [e2]
    refine hother a haa y id' p' hy ?_ hky
    intro hid
    apply hne
    exact b.same haa haa hy hm (by exact_mod_cast hid.symm.trans e)
  · refine pierces_of_normal argsort b.history.reaches hxl hk (b.history.rows x hxl) g2.d3 ?_ ?_
    · rw [e2]; exact s1
    · rw [e2]; exact s2

end

/-- non-vacuity of C99: a sphere of radius 2 with a cube taken out. The z axis shows the wall of the hole at (0, 0, -1); an oblique ray shows it too. -/
example (ha : IsStableArgsort argsort) :
    let h := pairOf argsort (.sphere 2) (.cube ![-1, -1, -1] ![3, 3, 3]) .difference
    let r2 : Ray := ⟨point 3 0 (-5), vector (-3 / 5) 0 (4 / 5)⟩
    ((4 : ℝ) : EReal) ∈ (intersectObj argsort 2 h 2 (zRay 0)).1 ∧ (zRay 0).at 4 = r2.at 5 ∧
      Reported (intersectObj argsort 2 h 2 r2) 5 (h.obj 1).oid := by
  intro h r2
  set p : Prim := .sphere 2 with hp
  set q : Prim := .cube ![-1, -1, -1] ![3, 3, 3] with hqq
  obtain ⟨sz, k0, k1, k2, w0, w1, -, -, -, t⟩ := pairOf_spec argsort p q .difference
  change h.size = 3 at sz
  change (h.obj 0).kind = _ at k0
  change (h.obj 1).kind = _ at k1
  change (h.obj 2).kind = _ at k2
  change (h.obj 0).world = _ at w0
  change (h.obj 1).world = _ at w1
  have hrep := pairOf_represents argsort p q .difference
  have hm : ∀ r : Ray, r.map (1 : Mat4)⁻¹ = r := fun r => by simp [Ray.map]
  have g2 : GoodRay r2 := by
    refine ⟨by simp [r2, point], by simp [r2, vector], ⟨?_, ?_, ?_⟩, ?_⟩
    · right; simp only [r2, vector, cons_val_zero]; rw [abs_of_neg (by norm_num)]; norm_num
    · left; simp [r2, vector]
    · right
      show (1e-8 : ℝ) < |4 / 5|
      rw [abs_of_pos (by norm_num)]; norm_num
    · left; simp [r2, vector]
  have hall : (Solid.node .difference (.leaf p 1) (.leaf q 1)).All fun p w =>
      (p.Valid ∧ Affine w) ∧ Sees p ((zRay 0).map w⁻¹) ∧ Sees p (r2.map w⁻¹) := by
    refine ⟨⟨⟨trivial, affine_one⟩, ?_⟩, ⟨⟨trivial, affine_one⟩, ?_⟩⟩
    · rw [hm, hm]; exact ⟨(zRay_good 0).ne, g2.ne⟩
    · rw [hm, hm]; exact ⟨(zRay_good 0).clear, g2.clear⟩
  have hov : ∀ x k l r, Chain h 2 x k → (h.obj x).kind = .csg .union l r → Overlap (h.obj l).aobb (h.obj r).aobb := by
    intro x k l r hc hk
    have hx : x = 0 ∨ x = 1 ∨ x = 2 := by
      clear hk
      induction hc with
      | refl => omega
      | left _ hk ih => rcases ih with rfl | rfl | rfl <;> simp_all
      | right _ hk ih => rcases ih with rfl | rfl | rfl <;> simp_all
    rcases hx with rfl | rfl | rfl
    · rw [k0] at hk; cases hk
    · rw [k1] at hk; cases hk
    · rw [k2] at hk; cases hk
  have hcube : ∀ z : ℝ, -1 < z → z < 3 → Spec.Interior q (point 0 0 z) := by
    intro z h1 h2 i
    fin_cases i
    · show min (-1 : ℝ) 3 < 0 ∧ 0 < max (-1 : ℝ) 3
      norm_num
    · show min (-1 : ℝ) 3 < 0 ∧ 0 < max (-1 : ℝ) 3
      norm_num
    · show min (-1 : ℝ) 3 < z ∧ z < max (-1 : ℝ) 3
      norm_num [h1, h2]
  have hncube : ∀ z : ℝ, z < -1 → ¬ Spec.Closed q (point 0 0 z) := by
    intro z h1 hc
    have h2 : min (-1 : ℝ) 3 ≤ z := (hc 2).1
    norm_num at h2
    linarith
  have hin : ∀ t : ℝ, 3 < t → t < 4 → (Solid.node .difference (.leaf p 1) (.leaf q 1)).Interior ((zRay 0).at t) := by
    intro t h1 h2
    simp only [Solid.Interior, Solid.Outside, zRay_at]
    refine ⟨⟨_, one_mulVec _, ?_⟩, ?_⟩
    · simp only [hp, Spec.Interior, point, cons_val]
      nlinarith
    · intro x hx
      rw [one_mulVec] at hx
      subst hx
      exact hncube _ (by linarith)
  have hout : ∀ t : ℝ, 4 < t → t < 8 → (Solid.node .difference (.leaf p 1) (.leaf q 1)).Outside ((zRay 0).at t) := by
    intro t h1 h2
    simp only [Solid.Interior, Solid.Outside, zRay_at]
    exact Or.inr ⟨_, one_mulVec _, hcube _ (by linarith) (by linarith)⟩
  have hall1 := hall.imp (Q := fun p w => (p.Valid ∧ Affine w) ∧ Sees p ((zRay 0).map w⁻¹)) fun p w h => ⟨h.1, h.2.1⟩
  obtain ⟨v, hv, v1, v2⟩ := C64_crossing_partial argsort ha.1 2 h (t 2) 2 (by omega) _ hrep hov (zRay 0) (zRay_good 0) hall1 2 (by simp [Solid.depth])
    (7 / 2) 5 (by norm_num) (.inl ⟨hin _ (by norm_num) (by norm_num), hout _ (by norm_num) (by norm_num)⟩)
  have hbd := C64_tidy_partial argsort ha 2 h (t 2) 2 (by omega) _ hrep hov (zRay 0) (zRay_good 0) hall1 2 (by simp [Solid.depth]) v hv
  have ev : v = 4 := by
    rcases lt_trichotomy v 4 with h | h | h
    · exact (hbd.1 (hin v (by linarith) h)).elim
    · exact h
    · exact (hbd.2 (hout v h (by linarith))).elim
  subst ev
  have far : ∀ y : ℝ, (y = -1 ∨ y = 3) → ¬ isclose 0 y := by
    rintro y (rfl | rfl) <;>
    · unfold isclose
      rw [not_le]
      norm_num [abs_of_nonneg, abs_of_neg]
  have e5 : r2.at 5 = point 0 0 (-1) := by
    funext i
    fin_cases i <;> norm_num [Ray.at, r2, point, vector]
  have hat : (zRay 0).at 4 = r2.at 5 := by
    rw [e5, zRay_at]; norm_num
  refine ⟨hv, hat, ?_⟩
  have ids : surfaceIds 2 h 2 = [((h.obj 0).oid, 0), ((h.obj 1).oid, 1)] := by
    simp [surfaceIds, k0, k1, k2]
  refine C99_not_tangent argsort ha 2 h (t 2) 2 (by omega) _ hrep hov 2 (by simp [Solid.depth]) (zRay 0) r2 (zRay_good 0) g2 hall 4 5 hat 1 _
    (by rw [ids]; simp) q k1 hv ?_ ?_ ?_
  · intro y id' p' hy hne hky
    rw [ids] at hy
    simp only [List.mem_cons, Prod.mk.injEq, List.not_mem_nil, or_false] at hy
    rcases hy with ⟨-, rfl⟩ | ⟨-, rfl⟩
    · rw [k0] at hky
      cases hky
      left
      rw [w0, e5]
      exact ⟨_, one_mulVec _, by simp [hp, Spec.Interior, point]⟩
    · exact absurd rfl hne
  · rw [w1, inv_one, one_mulVec, e5]
    refine ⟨2, show (-1 : ℝ) ≠ 3 by norm_num, .inr ⟨?_, ?_⟩, ?_⟩
    · show (-1 : ℝ) = min (-1) 3
      norm_num
    · show ¬ isclose (min (-1 : ℝ) 3) (max (-1 : ℝ) 3)
      rw [min_eq_left (by norm_num), max_eq_right (by norm_num)]
      unfold isclose
      rw [not_le]
      norm_num [abs_of_nonneg, abs_of_neg]
    · intro j hj
      have : j = 0 ∨ j = 1 := by omega
      rcases this with rfl | rfl
      all_goals
        show min (-1 : ℝ) 3 < 0 ∧ 0 < max (-1 : ℝ) 3 ∧ ¬ isclose 0 (min (-1 : ℝ) 3) ∧ ¬ isclose 0 (max (-1 : ℝ) 3)
        rw [min_eq_left (by norm_num), max_eq_right (by norm_num)]
        exact ⟨by norm_num, by norm_num, far _ (.inl rfl), far _ (.inr rfl)⟩
  · have hi := reaches_inv argsort empty_inv (TidyReaches.reaches argsort (t 2))
    have o1 : (h.obj 1).objT = 1 := by
      have := (hi.synced 1 (by rw [show (pairOf argsort p q .difference).size = 3 from sz]; omega)).2.1
      exact this.trans (by rw [show ((pairOf argsort p q .difference).obj 1).world = 1 from w1, inv_one])
    have o2 : (h.obj 1).nscale ≠ 0 := by
      rw [reaches_normals argsort empty_inv empty_normals (TidyReaches.reaches argsort (t 2)) 1
        (by rw [show (pairOf argsort p q .difference).size = 3 from sz]; omega) q k1]
      split <;> norm_num
    have hs : cubeSpans ![-1, -1, -1] ![3, 3, 3] = fun _ => ((-1 : ℝ), (3 : ℝ)) := by
      funext j
      fin_cases j <;> simp [cubeSpans] <;> norm_num
    have hnn : q.normal (point 0 0 (-1)) = ![0, 0, -1, 0] := by
      simp only [hqq, Prim.normal, hs]
      rw [show point 0 0 (-1) 0 = 0 from rfl, show point 0 0 (-1) 1 = 0 from rfl, show point 0 0 (-1) 2 = -1 from rfl,
        cubeNormalComp_none (far _ (.inr rfl)) (far _ (.inl rfl)), cubeNormalComp_lo ?_ (isclose_self _)]
      · have : norm4 ![0, 0, -1, 0] = 1 := by unfold norm4; simp
        funext j
        simp only [normalize, this, div_one]
      · unfold isclose
        rw [not_le]
        norm_num [abs_of_nonneg, abs_of_neg]
    simp only [surfaceNormal, k1, worldNormal, o1, e5, transpose_one, one_mulVec, hnn]
    have : norm4 ![0, 0, -1, 0] = 1 := by unfold norm4; simp
    have hz : zeroW ![0, 0, -1, 0] = ![0, 0, -1, 0] := rfl
    simpa [hz, normalize, this, dot4, r2, vector] using o2

end PyRayT
