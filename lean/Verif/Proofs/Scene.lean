import Verif.Model.Scene
import Verif.Spec.Trace
import Verif.Proofs.Normals
import Verif.Proofs.Operations
import Verif.Proofs.Solid
import Verif.Proofs.CsgHeap2

/-! The built-in materials and the objects of a heap meet the specification of components. -/

namespace PyRayT

open Classical Matrix Spec

variable (argsort : List EReal → List ℕ)

theorem norm4_normalize_or (v : Vec4) : norm4 (normalize v) = 1 ∨ normalize v = 0 := by
  by_cases h : v = 0
  · right; funext i; simp [normalize, h]
  · left; exact norm4_eq_one.2 (dot4_normalize_self h)

theorem norm4_smul_pm {k : ℝ} (hk : k = 1 ∨ k = -1) (v : Vec4) : norm4 (k • v) = norm4 v := by
  rcases hk with rfl | rfl <;> simp [norm4]

theorem reflect_norm {v n : Vec4} (hn : norm4 n = 1 ∨ n = 0) : norm4 (fun i => v i - 2 * n i * dot4 v n) = norm4 v := by
  rcases hn with hn | rfl
  · have h := norm4_eq_one.1 hn
    have h2 : dot4 (fun i => v i - 2 * n i * dot4 v n) (fun i => v i - 2 * n i * dot4 v n) = dot4 v v := by
      have e : (fun i => v i - 2 * n i * dot4 v n) = fun i => 1 * v i + (-2 * dot4 v n) * n i := by funext i; ring
      rw [e, dot4_lin_left, dot4_lin_right, dot4_lin_right, h, dot4_comm n v]
      ring
    rw [norm4_eq, norm4_eq, h2]
  · simp

/-- what is needed of a normal function -/
def NormalOk (nf : Vec4 → Vec4) : Prop := ∀ q, nf q 3 = 0 ∧ (norm4 (nf q) = 1 ∨ nf q = 0)

theorem normalize_three {v : Vec4} (h : v 3 = 0) : normalize v 3 = 0 := by simp [normalize, h]

theorem refract_three {v n : Vec4} (hv : v 3 = 0) (hn : n 3 = 0) (n1 n2 ng : ℝ) : (refract v n n1 n2 ng).2.1 3 = 0 := by
  have hu := normalize_three hv
  simp only [refract]
  apply normalize_three
  split <;> split <;> simp [hu, hn]

theorem material_ok {nf : Vec4 → Vec4} (hn : NormalOk nf) (m : Material) : MaterialOk fun c => m.trace nf c := by
  cases m with
  | absorber =>
    exact ⟨fun _ => rfl, fun _ => rfl, fun _ => rfl, fun _ => rfl, fun _ => rfl, fun _ _ => rfl, fun _ _ _ => Or.inr rfl⟩
  | mirror =>
    refine ⟨fun _ => rfl, fun _ => rfl, fun _ => rfl, fun _ => rfl, fun _ => rfl, fun c h => ?_, fun c _ h => Or.inl ?_⟩
    · simp [Material.trace, h, (hn c.ray.o).1]
    · simp only [Material.trace]
      rw [reflect_norm (hn c.ray.o).2, h]
  | glass m =>
    refine ⟨fun _ => rfl, fun _ => rfl, fun _ => rfl, fun _ => rfl, fun _ => rfl, fun c h => ?_, fun c _ h => ?_⟩
    · exact refract_three h (hn c.ray.o).1 _ _ _
    · exact norm4_normalize_or _

theorem surfaceNormal_ok {fuel : ℕ} {h : Heap} (hr : Reaches argsort fuel Heap.empty h) {x : ℕ} (hx : x < h.size) :
    NormalOk (surfaceNormal h x) := by
  intro q
  by_cases hp : ∃ p, (h.obj x).kind = .prim p
  · obtain ⟨p, hk⟩ := hp
    have e : surfaceNormal h x q = worldNormal (h.obj x) p q := by simp only [surfaceNormal, hk]
    have hns := reaches_normals argsort empty_inv empty_normals hr x hx p hk
    have hpm : (h.obj x).nscale = 1 ∨ (h.obj x).nscale = -1 := by
      rw [hns]; split
      · exact Or.inr rfl
      · exact Or.inl rfl
    rw [e]
    unfold worldNormal
    refine ⟨?_, ?_⟩
    · rw [Pi.smul_apply, normalize_three (by simp [zeroW])]; simp
    · rcases norm4_normalize_or (zeroW ((h.obj x).objTᵀ *ᵥ p.normal ((h.obj x).objT *ᵥ q))) with e | e
      · left; rw [norm4_smul_pm hpm, e]
      · right; rw [e, smul_zero]
  · have e : surfaceNormal h x q = 0 := by
      unfold surfaceNormal
      split
      · rename_i p hk; exact absurd ⟨p, hk⟩ hp
      · rfl
    rw [e]
    exact ⟨rfl, Or.inr rfl⟩

theorem surfaceIds_spec {h : Heap} (hi : Inv h) : ∀ (depth a : ℕ), a < h.size → ∀ e ∈ surfaceIds depth h a,
    e.2 < h.size ∧ e.1 = (h.obj e.2).oid ∧ ∃ p, (h.obj e.2).kind = .prim p := by
  intro depth
  induction depth with
  | zero => intro a _ e he; cases he
  | succ depth ih =>
    intro a ha e he
    unfold surfaceIds at he
    split at he
    · rename_i p hk
      simp at he
      subst he
      exact ⟨ha, rfl, p, hk⟩
    · rename_i op l r hk
      have hl := (hi.children a l ha ⟨op, l, r, hk, Or.inl rfl⟩).1
      have hr := (hi.children a r ha ⟨op, l, r, hk, Or.inr rfl⟩).1
      rcases List.mem_append.1 he with he | he
      · exact ih l (by omega) e he
      · exact ih r (by omega) e he
    · cases he

/-- objects of the heap are components as the tracer needs them -/
theorem component_ok (ha : IsArgsort argsort) (s : Scene) (depth a : ℕ) : ComponentOk (s.component argsort depth a) where
  len ray := (intersectObj_shape argsort ha s.heap ray depth a).2.2
  labels ray i v k hv hne hs := by
    obtain ⟨x, p, -, hm, hk, e, -⟩ := intersectObj_label argsort ha s.heap ray depth a i v k hv hne hs
    exact ⟨_, List.mem_map.2 ⟨_, hm, by rw [e]⟩⟩
  ids e he := by
    obtain ⟨e', -, rfl⟩ := List.mem_map.1 he
    simp

/-- a tracer over objects of a heap, none of whose surfaces occurs twice -/
theorem scene_ok (ha : IsArgsort argsort) {fuel : ℕ} {s : Scene} (hr : Reaches argsort fuel Heap.empty s.heap)
    {objs : List ℕ} (hlt : ∀ a ∈ objs, a < s.heap.size) {depth : ℕ}
    (hnd : (objs.flatMap fun a => (surfaceIds depth s.heap a).map Prod.snd).Nodup)
    {sources : List (ℕ → List Col)} {n : ℕ} {limit : ℤ}
    (hem : ∀ f ∈ sources, ∀ c ∈ f n, c.generation = 0 ∧ c.ray.o 3 = 1 ∧ c.ray.d 3 = 0 ∧ norm4 c.ray.d = 1) :
    TracerOk (Tracer.new sources (objs.map (s.component argsort depth)) n limit) := by
  have hi := reaches_inv argsort empty_inv hr
  have hmem : ∀ e ∈ objs.flatMap (surfaceIds depth s.heap), e.2 < s.heap.size ∧ e.1 = (s.heap.obj e.2).oid := by
    intro e he
    obtain ⟨a, h1, h2⟩ := List.mem_flatMap.1 he
    obtain ⟨h3, h4, -⟩ := surfaceIds_spec hi depth a (hlt a h1) e h2
    exact ⟨h3, h4⟩
  refine ⟨?_, rfl, ?_, ?_, hem⟩
  · intro c hc
    obtain ⟨a, -, rfl⟩ := List.mem_map.1 hc
    exact component_ok argsort ha s depth a
  · show (((objs.map (s.component argsort depth)).flatMap Component.surfaces).map Prod.fst).Nodup
    have e : ((objs.map (s.component argsort depth)).flatMap Component.surfaces).map Prod.fst =
        (objs.flatMap (surfaceIds depth s.heap)).map fun e => (e.1 : ℤ) := by
      rw [List.flatMap_map, List.map_flatMap, List.map_flatMap]
      congr 1
      funext a
      simp only [Scene.component, List.map_map]
      rfl
    rw [e]
    have hnd' : ((objs.flatMap (surfaceIds depth s.heap)).map Prod.snd).Nodup := by
      rw [List.map_flatMap]; exact hnd
    refine List.Nodup.map_on ?_ (List.Nodup.of_map _ hnd')
    intro x hx y hy hxy
    obtain ⟨x1, x2⟩ := hmem x hx
    obtain ⟨y1, y2⟩ := hmem y hy
    have hxy' : x.1 = y.1 := by exact_mod_cast hxy
    have : x.2 = y.2 := by
      by_contra hne
      rw [x2, y2] at hxy'
      rcases lt_or_gt_of_ne hne with hlt | hlt
      · exact absurd hxy' (hi.ids _ _ hlt y1).ne
      · exact absurd hxy' (hi.ids _ _ hlt x1).ne'
    exact Prod.ext hxy' this
  · intro e he
    obtain ⟨c, hc, hce⟩ := List.mem_flatMap.1 he
    obtain ⟨a, h1, rfl⟩ := List.mem_map.1 hc
    obtain ⟨e', h2, rfl⟩ := List.mem_map.1 hce
    obtain ⟨h3, -⟩ := surfaceIds_spec hi depth a (hlt a h1) e' h2
    exact material_ok (surfaceNormal_ok argsort hr h3) _

end PyRayT
