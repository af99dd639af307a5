import Verif.Model.Flip
import Verif.Props.CsgHeap
import Verif.Proofs.Solid

/-!
# Properties C76 and C77: inverting and resetting normals
-/

namespace PyRayT

open Matrix

variable (argsort : List EReal → List ℕ)

namespace Spec

/-- the object at `a` is, or contains, the surface at `x` -/
def Contains (h : Heap) (a x : ℕ) : Prop := ∃ k, Chain h a x k

/-- the geometric normal of a surface: that of an object whose normals were never touched -/
noncomputable def outward (h : Heap) (x : ℕ) (q : Prim) (pos : Vec4) : Vec4 :=
  normalize (zeroW ((h.obj x).objTᵀ *ᵥ q.normal ((h.obj x).objT *ᵥ pos)))

end Spec

theorem under_chain {h : Heap} {a x : ℕ} (hu : Under h a x) : ∃ k, Chain h a x k := by
  induction hu with
  | refl => exact ⟨0, .refl⟩
  | step _ hp ih =>
    obtain ⟨k, hk⟩ := ih
    obtain ⟨op, l, r, hkind, rfl | rfl⟩ := hp
    · exact ⟨k, .left hk hkind⟩
    · exact ⟨_, .right hk hkind⟩

theorem contains_iff {h : Heap} {a x : ℕ} : Spec.Contains h a x ↔ Under h a x :=
  ⟨fun ⟨_, hk⟩ => chain_under hk, under_chain⟩

theorem resetNormals_same : ∀ (fuel : ℕ) (h : Heap) (a : ℕ), SameButNormals h (resetNormals fuel h a) := by
  intro fuel
  induction fuel with
  | zero => intro h a; exact SameButNormals.refl h
  | succ fuel ih =>
    intro h a
    unfold resetNormals
    split
    · exact (ih h _).trans (ih _ _)
    · refine ⟨rfl, rfl, fun b => ?_⟩
      by_cases hb : b = a
      · subst hb; rw [Heap.set_obj_self]
      · rw [Heap.set_obj_ne _ _ hb]

/-- a tree walk that sets the scale of every leaf -/
theorem walk_nscale (s : ℝ) (walk : ℕ → Heap → ℕ → Heap)
    (hw : ∀ fuel g a, walk (fuel + 1) g a = match (g.obj a).kind with
      | .csg _ l r => walk fuel (walk fuel g l) r
      | _ => g.set a { g.obj a with nscale := s })
    (same : ∀ fuel g a, SameButNormals g (walk fuel g a))
    {h : Heap} (hi : Struct h) {x : ℕ} {q : Prim} (hq : (h.obj x).kind = .prim q) :
    ∀ (fuel : ℕ) (g : Heap), (∀ y < h.size, (g.obj y).kind = (h.obj y).kind) → ∀ a, a < fuel → a < h.size →
      (h.obj a).kind.intersectable →
      ((walk fuel g a).obj x).nscale = (open Classical in if Under h a x then s else (g.obj x).nscale) := by
  classical
  intro fuel
  induction fuel with
  | zero => intro g _ a ha; omega
  | succ fuel ih =>
    intro g ek a hfa ha hint
    rw [hw, ek a ha]
    split
    · rename_i op l r hk
      have cl := hi.children a l ha ⟨op, l, r, hk, Or.inl rfl⟩
      have cr := hi.children a r ha ⟨op, l, r, hk, Or.inr rfl⟩
      have s := same fuel g l
      rw [ih _ (fun y hy => by rw [s.2.2 y]; exact ek y hy) r (by omega) (by omega) cr.2,
        ih g ek l (by omega) (by omega) cl.2]
      have hsplit : Under h a x ↔ Under h l x ∨ Under h r x := by
        constructor
        · intro hu
          rcases hu.inv with rfl | ⟨c, ⟨op', l', r', hk', hor⟩, hcx⟩
          · rw [hk] at hq; cases hq
          · rw [hk] at hk'; cases hk'
            rcases hor with rfl | rfl
            · exact Or.inl hcx
            · exact Or.inr hcx
        · rintro (hu | hu)
          · exact Under.trans (.step .refl ⟨op, l, r, hk, Or.inl rfl⟩) hu
          · exact Under.trans (.step .refl ⟨op, l, r, hk, Or.inr rfl⟩) hu
      by_cases h1 : Under h r x
      · rw [if_pos h1, if_pos (hsplit.2 (Or.inr h1))]
      · rw [if_neg h1]
        by_cases h2 : Under h l x
        · rw [if_pos h2, if_pos (hsplit.2 (Or.inl h2))]
        · rw [if_neg h2, if_neg (fun hu => (hsplit.1 hu).elim h2 h1)]
    · rename_i hn
      rw [Heap.set_obj]
      by_cases hxa : x = a
      · subst hxa; rw [if_pos rfl, if_pos .refl]
      · rw [if_neg hxa, if_neg]
        intro hu
        rcases hu.inv with e | ⟨c, ⟨op', l', r', hk', -⟩, -⟩
        · exact hxa e
        · exact hn op' l' r' hk'

/-- what one call writes -/
def FlipCall.scale : FlipCall → ℝ
  | .invert _ => -1
  | .reset _ => 1

theorem run_same (h : Heap) (c : FlipCall) : SameButNormals h (c.run h) := by
  cases c with
  | invert a => exact invertNormals_same _ _ _
  | reset a => exact resetNormals_same _ _ _

theorem flipAll_same (h : Heap) (calls : List FlipCall) : SameButNormals h (flipAll h calls) := by
  induction calls generalizing h with
  | nil => exact SameButNormals.refl h
  | cons c cs ih => exact (run_same h c).trans (ih _)

theorem same_kind {h h' : Heap} (hs : SameButNormals h h') (a : ℕ) : (h'.obj a).kind = (h.obj a).kind := by
  rw [hs.2.2 a]

theorem same_under {h h' : Heap} (hs : SameButNormals h h') (a x : ℕ) : Under h' a x ↔ Under h a x := by
  have hp : ∀ p y, IsParent h' p y ↔ IsParent h p y := fun p y => by unfold IsParent; rw [same_kind hs]
  constructor
  · intro hu
    induction hu with
    | refl => exact .refl
    | step _ h1 ih => exact .step ih ((hp _ _).1 h1)
  · intro hu
    induction hu with
    | refl => exact .refl
    | step _ h1 ih => exact .step ih ((hp _ _).2 h1)

theorem run_nscale {h : Heap} (hi : Inv h) {x : ℕ} {q : Prim} (hq : (h.obj x).kind = .prim q) (c : FlipCall)
    (hc : c.target < h.size) (hk : (h.obj c.target).kind.intersectable) :
    ((c.run h).obj x).nscale = (open Classical in if Under h c.target x then c.scale else (h.obj x).nscale) := by
  cases c with
  | invert a =>
    exact walk_nscale (-1) invertNormals (fun _ g a => by
      conv_lhs => unfold invertNormals
      cases (g.obj a).kind <;> rfl) invertNormals_same hi.toStruct hq
      h.size h (fun _ _ => rfl) a hc hc hk
  | reset a =>
    exact walk_nscale 1 resetNormals (fun _ g a => by
      conv_lhs => unfold resetNormals
      cases (g.obj a).kind <;> rfl) resetNormals_same hi.toStruct hq
      h.size h (fun _ _ => rfl) a hc hc hk

/-- calls that do not contain the surface do not touch it -/
theorem flipAll_untouched {h : Heap} (hi : Inv h) {x : ℕ} {q : Prim} (hq : (h.obj x).kind = .prim q) (calls : List FlipCall)
    (hc : ∀ c ∈ calls, c.target < h.size ∧ (h.obj c.target).kind.intersectable ∧ ¬ Under h c.target x) :
    ((flipAll h calls).obj x).nscale = (h.obj x).nscale := by
  induction calls generalizing h with
  | nil => rfl
  | cons c cs ih =>
    have hs := run_same h c
    have h1 := hc c (by simp)
    have := ih (hs.inv hi) (by rw [same_kind hs]; exact hq) (fun d hd => by
      have := hc d (by simp [hd])
      rw [hs.1, same_kind hs, same_under hs]; exact this)
    rw [show flipAll h (c :: cs) = flipAll (c.run h) cs from rfl, this, run_nscale hi hq c h1.1 h1.2.1, if_neg h1.2.2]

theorem flipAll_append (h : Heap) (xs ys : List FlipCall) : flipAll h (xs ++ ys) = flipAll (flipAll h xs) ys := by
  unfold flipAll; rw [List.foldl_append]

theorem flipAll_last {h : Heap} (hi : Inv h) {x : ℕ} {q : Prim} (hq : (h.obj x).kind = .prim q) (pre post : List FlipCall)
    (c : FlipCall) (hv : ∀ d ∈ pre ++ c :: post, d.target < h.size ∧ (h.obj d.target).kind.intersectable)
    (hcx : Under h c.target x) (hpost : ∀ d ∈ post, ¬ Under h d.target x) :
    ((flipAll h (pre ++ c :: post)).obj x).nscale = c.scale := by
  rw [flipAll_append]
  have s1 := flipAll_same h pre
  set g := flipAll h pre
  have hc := hv c (by simp)
  have s2 := run_same g c
  rw [show flipAll g (c :: post) = flipAll (c.run g) post from rfl]
  rw [flipAll_untouched (s2.inv (s1.inv hi)) (q := q) (by rw [same_kind s2, same_kind s1]; exact hq) post (fun d hd => by
      have := hv d (by simp [hd])
      rw [s2.1, s1.1, same_kind s2, same_kind s1, same_under s2, same_under s1]
      exact ⟨this.1, this.2, hpost d hd⟩),
    run_nscale (s1.inv hi) (q := q) (by rw [same_kind s1]; exact hq) c (by rw [s1.1]; exact hc.1)
      (by rw [same_kind s1]; exact hc.2), if_pos ((same_under s1 _ _).2 hcx)]

theorem worldNormal_same {h h' : Heap} (hs : SameButNormals h h') (x : ℕ) (q : Prim) (pos : Vec4) :
    worldNormal (h'.obj x) q pos = (h'.obj x).nscale • Spec.outward h x q pos := by
  unfold worldNormal Spec.outward
  rw [hs.2.2 x]

/-- **C76.** After any history, and then any sequence of `invert_normals()` and `reset_normals()` calls on surfaces and
composites: the normals of a surface are the geometric ones if the last call on an object containing it was a reset,
their opposites if it was an inversion, and unchanged if there was no such call. Nothing else about any object changes. -/
theorem C76_last_call_wins (fuel : ℕ) (h : Heap) (hr : Reaches argsort fuel Heap.empty h) (calls : List FlipCall)
    (hv : ∀ c ∈ calls, c.target < h.size ∧ (h.obj c.target).kind.intersectable) (x : ℕ) (q : Prim)
    (hq : (h.obj x).kind = .prim q) (pos : Vec4) :
    (∀ pre post a, calls = pre ++ .invert a :: post → Spec.Contains h a x →
      (∀ d ∈ post, ¬ Spec.Contains h d.target x) →
      worldNormal ((flipAll h calls).obj x) q pos = - Spec.outward h x q pos) ∧
    (∀ pre post a, calls = pre ++ .reset a :: post → Spec.Contains h a x →
      (∀ d ∈ post, ¬ Spec.Contains h d.target x) →
      worldNormal ((flipAll h calls).obj x) q pos = Spec.outward h x q pos) ∧
    ((∀ d ∈ calls, ¬ Spec.Contains h d.target x) →
      worldNormal ((flipAll h calls).obj x) q pos = worldNormal (h.obj x) q pos) ∧
    (∀ y, ∃ s, (flipAll h calls).obj y = { h.obj y with nscale := s }) := by
  have hi := reaches_inv argsort empty_inv hr
  have hs := flipAll_same h calls
  simp only [contains_iff]
  refine ⟨?_, ?_, ?_, fun y => ⟨_, hs.2.2 y⟩⟩
  · rintro pre post a rfl hc hp
    rw [worldNormal_same hs, flipAll_last hi hq pre post (.invert a) hv hc hp]
    simp [FlipCall.scale]
  · rintro pre post a rfl hc hp
    rw [worldNormal_same hs, flipAll_last hi hq pre post (.reset a) hv hc hp]
    simp [FlipCall.scale]
  · intro hp
    rw [worldNormal_same hs, worldNormal_same (SameButNormals.refl h),
      flipAll_untouched hi hq calls (fun c hc => ⟨(hv c hc).1, (hv c hc).2, hp c hc⟩)]

/-- Non-vacuity of C76: in `difference(union(s0, s1), s2)`, after `invert` of the whole and `reset` of the union, `s0` has
its geometric normal and `s2` the opposite. -/
example : ∃ h, Reaches argsort 3 Heap.empty h ∧ ∃ c, (h.obj 4).kind = .csg .difference 3 2 ∧
    c = flipAll h [.invert 4, .reset 3] ∧ ∀ pos,
    worldNormal (c.obj 0) (.sphere 1) pos = Spec.outward h 0 (.sphere 1) pos ∧
    worldNormal (c.obj 2) (.sphere 1) pos = - Spec.outward h 2 (.sphere 1) pos := by
  obtain ⟨s, k, k3, k4, w, hre⟩ :=
    nest_spec argsort .union .difference 0 1 3 2 (by omega) (by omega) (by omega) (by omega)
  set h := newCsg argsort (newCsg argsort three .union 0 1) .difference 3 2 with hh
  have hv : ∀ c ∈ ([.invert 4, .reset 3] : List FlipCall), c.target < h.size ∧ (h.obj c.target).kind.intersectable := by
    intro c hc
    simp only [List.mem_cons, List.not_mem_nil, or_false] at hc
    rcases hc with rfl | rfl
    · refine ⟨by rw [s]; simp [FlipCall.target], ?_⟩
      rw [show (FlipCall.invert 4).target = 4 from rfl, k4]; rfl
    · refine ⟨by rw [s]; simp [FlipCall.target], ?_⟩
      rw [show (FlipCall.reset 3).target = 3 from rfl, k3]; rfl
  refine ⟨h, hre, _, k4, rfl, fun pos => ⟨?_, ?_⟩⟩
  · exact (C76_last_call_wins argsort 3 h hre _ hv 0 _ (k 0 (by omega)) pos).2.1 [.invert 4] [] 3 rfl
      ⟨_, .left .refl k3⟩ (by simp)
  · refine (C76_last_call_wins argsort 3 h hre _ hv 2 _ (k 2 (by omega)) pos).1 [] [.reset 3] 4 rfl
      ⟨_, .right .refl k4⟩ ?_
    intro d hd
    simp only [List.mem_cons, List.not_mem_nil, or_false] at hd
    subst hd
    rw [contains_iff]
    intro hu
    rcases hu.inv with e | ⟨c, ⟨op', l', r', hk', hor⟩, hcx⟩
    · cases e
    · rw [show (FlipCall.reset 3).target = 3 from rfl] at hk'
      rw [k3] at hk'; cases hk'
      rcases hor with rfl | rfl <;>
      · rcases hcx.inv with e | ⟨c, ⟨op', l', r', hk', hor⟩, hcx⟩
        · cases e
        · rw [k _ (by omega)] at hk'; cases hk'

/-- **C77, partial.** Inverting and then resetting any composite or surface gives back the normals it had, for each surface in
it that has not been subtracted from anything. Missing: surfaces of a subtracted operand (`C77_difference_false`). -/
theorem C77_restore_partial (fuel : ℕ) (h : Heap) (hr : Reaches argsort fuel Heap.empty h) (a x : ℕ) (ha : a < h.size)
    (hk : (h.obj a).kind.intersectable) (q : Prim) (hq : (h.obj x).kind = .prim q) (hx : x < h.size)
    (hc : Spec.Contains h a x)
    (hsub : ∀ d < h.size, ∀ l r, (h.obj d).kind = .csg .difference l r → ¬ Spec.Contains h r x) (pos : Vec4) :
    worldNormal ((flipAll h [.invert a, .reset a]).obj x) q pos = worldNormal (h.obj x) q pos := by
  have hn := reaches_normals argsort empty_inv empty_normals hr
  rw [(C76_last_call_wins argsort fuel h hr [.invert a, .reset a] (by
    intro c hc'
    simp only [List.mem_cons, List.not_mem_nil, or_false] at hc'
    rcases hc' with rfl | rfl <;> exact ⟨ha, hk⟩) x q hq pos).2.1 [.invert a] [] a rfl hc (by simp)]
  rw [worldNormal_same (SameButNormals.refl h), hn x hx q hq, if_neg, one_smul]
  rintro ⟨d, l, r, hd, hkd, hu⟩
  exact hsub d hd l r hkd (contains_iff.2 hu)

/-- **C77 is false for differences.** Resetting the normals of a fresh `difference(s0, s1)` turns the normals of the cavity
`s1` around: the constructor had inverted them, `reset_normals` makes them those of the solid `s1`. (Here at the point
`(0,0,1)` of a unit sphere.) -/
theorem C77_difference_false : ∃ h, Reaches argsort 3 Heap.empty h ∧ (h.obj 3).kind = .csg .difference 0 1 ∧
    worldNormal (h.obj 1) (.sphere 1) (point 0 0 1) = vector 0 0 (-1) ∧
    worldNormal ((flipAll h [.reset 3]).obj 1) (.sphere 1) (point 0 0 1) = vector 0 0 1 := by
  obtain ⟨s, k, k3, k4, w, hre⟩ :=
    nest_spec argsort .difference .union 0 1 3 2 (by omega) (by omega) (by omega) (by omega)
  set h := newCsg argsort (newCsg argsort three .difference 0 1) .union 3 2 with hh
  have hi := reaches_inv argsort empty_inv hre
  have ho : (h.obj 1).objT = 1 := by
    have := (hi.synced 1 (by omega)).2.1
    rw [this, w 1 (by omega)]; simp
  have hout : Spec.outward h 1 (.sphere 1) (point 0 0 1) = vector 0 0 1 := by
    unfold Spec.outward
    rw [ho]
    funext i
    fin_cases i <;> simp [Prim.normal, normalize, zeroW, norm4, point, vector]
  have c31 : Chain h 3 1 1 := Chain.right (op := .difference) .refl k3
  refine ⟨h, hre, k3, ?_, ?_⟩
  · rw [worldNormal_same (SameButNormals.refl h), hout,
      (C20_normals_partial argsort 3 h hre 3 1 1 (by omega) _ (k 1 (by omega)) c31).1 (le_refl _)]
    funext i
    fin_cases i <;> simp [vector]
  · rw [(C76_last_call_wins argsort 3 h hre [.reset 3] (by
      intro c hc
      simp only [List.mem_cons, List.not_mem_nil, or_false] at hc
      subst hc
      exact ⟨by rw [s]; simp [FlipCall.target], by rw [show (FlipCall.reset 3).target = 3 from rfl, k3]; rfl⟩) 1 _
      (k 1 (by omega)) _).2.1 [] [] 3 rfl ⟨_, c31⟩ (by simp), hout]

/-- Non-vacuity of C77: the surface `s0` of `union(s0, s1)`. -/
example (pos : Vec4) : ∃ h, Reaches argsort 3 Heap.empty h ∧ (h.obj 3).kind = .csg .union 0 1 ∧
    worldNormal ((flipAll h [.invert 3, .reset 3]).obj 0) (.sphere 1) pos = worldNormal (h.obj 0) (.sphere 1) pos := by
  obtain ⟨s, k, k3, k4, w, hre⟩ :=
    nest_spec argsort .union .difference 0 1 3 2 (by omega) (by omega) (by omega) (by omega)
  set h := newCsg argsort (newCsg argsort three .union 0 1) .difference 3 2 with hh
  refine ⟨h, hre, k3, C77_restore_partial argsort 3 h hre 3 0 (by omega) (by rw [k3]; rfl) _ (k 0 (by omega)) (by omega)
    ⟨_, .left .refl k3⟩ ?_ pos⟩
  intro d hd l r hkd
  rw [contains_iff]
  rcases (by omega : d < 3 ∨ d = 3 ∨ d = 4) with hp | rfl | rfl
  · rw [k d hp] at hkd; cases hkd
  · rw [k3] at hkd; cases hkd
  · rw [k4] at hkd; cases hkd
    intro hu
    rcases hu.inv with e | ⟨c, ⟨op', l', r', hk', hor⟩, hcx⟩
    · cases e
    · rw [k _ (by omega)] at hk'; cases hk'

end PyRayT
