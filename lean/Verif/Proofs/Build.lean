import Verif.Model.Components
import Verif.Proofs.CsgHeap2
import Verif.Proofs.Placed

/-!
What the component functions do to a scene, step by step: the objects under construction are disjoint trees of new objects
that no composite refers to; each step changes one of them, and nothing else.
-/

namespace PyRayT

open Classical Matrix

/-- a tree of addresses -/
inductive CTree where
  | leaf (a : ℕ)
  | node (a : ℕ) (op : Operation) (l r : CTree)

def CTree.root : CTree → ℕ
  | .leaf a => a
  | .node a _ _ _ => a

@[simp] theorem CTree.root_leaf (a : ℕ) : (CTree.leaf a).root = a := rfl
@[simp] theorem CTree.root_node (a : ℕ) (op : Operation) (l r : CTree) : (CTree.node a op l r).root = a := rfl

def CTree.addrs : CTree → List ℕ
  | .leaf a => [a]
  | .node a _ l r => a :: (l.addrs ++ r.addrs)

/-- a tree of surfaces with placement, normal scale and (if known) material -/
inductive Made where
  | leaf (p : Prim) (w : Mat4) (n : ℝ) (m : Option Material)
  | node (op : Operation) (l r : Made)

def Made.depth : Made → ℕ
  | .leaf _ _ _ _ => 1
  | .node _ l r => max l.depth r.depth + 1

/-- the solid alone -/
def Made.solid : Made → Solid
  | .leaf p w _ _ => .leaf p w
  | .node op l r => .node op l.solid r.solid

/-- moved by a matrix -/
noncomputable def Made.map (m : Mat4) : Made → Made
  | .leaf p w n x => .leaf p (m * w) n x
  | .node op l r => .node op (l.map m) (r.map m)

/-- normals inverted -/
noncomputable def Made.flip : Made → Made
  | .leaf p w _ x => .leaf p w (-1) x
  | .node op l r => .node op l.flip r.flip

/-- the composite of two trees -/
noncomputable def Made.join (op : Operation) (l r : Made) : Made :=
  .node op l (if op = .difference then r.flip else r)

/-- the tree of addresses holds the tree of surfaces -/
def Desc (s : Scene) : CTree → Made → Prop
  | .leaf a, .leaf p w n m => (s.heap.obj a).kind = .prim p ∧ (s.heap.obj a).world = w ∧ (s.heap.obj a).nscale = n ∧
      ∀ x, m = some x → s.material a = x
  | .node a op l r, .node op' l' r' => (s.heap.obj a).kind = .csg op l.root r.root ∧ op = op' ∧ Desc s l l' ∧ Desc s r r'
  | _, _ => False

theorem CTree.root_mem (T : CTree) : T.root ∈ T.addrs := by cases T <;> simp [root, addrs]

theorem Desc.frame {s s' : Scene} : ∀ {T : CTree} {M : Made}, Desc s T M →
    (∀ x ∈ T.addrs, (s'.heap.obj x).kind = (s.heap.obj x).kind ∧ (s'.heap.obj x).world = (s.heap.obj x).world ∧
      (∀ q, (s.heap.obj x).kind = .prim q → (s'.heap.obj x).nscale = (s.heap.obj x).nscale) ∧ s'.material x = s.material x) → Desc s' T M
  | .leaf a, .leaf p w n m, hd, h => by
    obtain ⟨h1, h2, h3, h4⟩ := h a (by simp [CTree.addrs])
    simp only [Desc] at hd ⊢
    rw [h1, h2, h3 p hd.1, h4]; exact hd
  | .node a op l r, .node op' l' r', hd, h => by
    obtain ⟨h1, -⟩ := h a (by simp [CTree.addrs])
    simp only [Desc] at hd ⊢
    rw [h1]
    exact ⟨hd.1, hd.2.1, hd.2.2.1.frame fun x hx => h x (by simp [CTree.addrs, hx]),
      hd.2.2.2.frame fun x hx => h x (by simp [CTree.addrs, hx])⟩
  | .leaf _, .node _ _ _, hd, _ => hd.elim
  | .node _ _ _ _, .leaf _ _ _ _, hd, _ => hd.elim

/-- one movement -/
theorem Desc.map {s s' : Scene} {m : Mat4} : ∀ {T : CTree} {M : Made}, Desc s T M →
    (∀ x ∈ T.addrs, (s'.heap.obj x).kind = (s.heap.obj x).kind ∧ (s'.heap.obj x).world = m * (s.heap.obj x).world ∧
      (∀ q, (s.heap.obj x).kind = .prim q → (s'.heap.obj x).nscale = (s.heap.obj x).nscale) ∧ s'.material x = s.material x) →
      Desc s' T (M.map m)
  | .leaf a, .leaf p w n x, hd, h => by
    obtain ⟨h1, h2, h3, h4⟩ := h a (by simp [CTree.addrs])
    simp only [Desc, Made.map] at hd ⊢
    rw [h1, h2, h3 p hd.1, h4]; exact ⟨hd.1, by rw [hd.2.1], hd.2.2.1, hd.2.2.2⟩
  | .node a op l r, .node op' l' r', hd, h => by
    obtain ⟨h1, -⟩ := h a (by simp [CTree.addrs])
    simp only [Desc, Made.map] at hd ⊢
    rw [h1]
    exact ⟨hd.1, hd.2.1, hd.2.2.1.map fun x hx => h x (by simp [CTree.addrs, hx]),
      hd.2.2.2.map fun x hx => h x (by simp [CTree.addrs, hx])⟩
  | .leaf _, .node _ _ _, hd, _ => hd.elim
  | .node _ _ _ _, .leaf _ _ _ _, hd, _ => hd.elim

/-- inverted normals -/
theorem Desc.flip {s s' : Scene} : ∀ {T : CTree} {M : Made}, Desc s T M →
    (∀ x ∈ T.addrs, (s'.heap.obj x).kind = (s.heap.obj x).kind ∧ (s'.heap.obj x).world = (s.heap.obj x).world ∧
      (∀ q, (s.heap.obj x).kind = .prim q → (s'.heap.obj x).nscale = -1) ∧ s'.material x = s.material x) → Desc s' T M.flip
  | .leaf a, .leaf p w n x, hd, h => by
    obtain ⟨h1, h2, h3, h4⟩ := h a (by simp [CTree.addrs])
    simp only [Desc, Made.flip] at hd ⊢
    rw [h1, h2, h3 p hd.1, h4]; exact ⟨hd.1, hd.2.1, rfl, hd.2.2.2⟩
  | .node a op l r, .node op' l' r', hd, h => by
    obtain ⟨h1, -⟩ := h a (by simp [CTree.addrs])
    simp only [Desc, Made.flip] at hd ⊢
    rw [h1]
    exact ⟨hd.1, hd.2.1, hd.2.2.1.flip fun x hx => h x (by simp [CTree.addrs, hx]),
      hd.2.2.2.flip fun x hx => h x (by simp [CTree.addrs, hx])⟩
  | .leaf _, .node _ _ _, hd, _ => hd.elim
  | .node _ _ _ _, .leaf _ _ _ _, hd, _ => hd.elim

theorem Desc.visits {s : Scene} : ∀ {T : CTree} {M : Made} {fuel : ℕ}, Desc s T M → M.depth ≤ fuel →
    Spec.visits (fun a => (s.heap.obj a).kind) fuel T.root = T.addrs ∧ Spec.fits (fun a => (s.heap.obj a).kind) fuel T.root
  | _, _, 0, hd, hf => by rename_i M; cases M <;> simp [Made.depth] at hf
  | .leaf a, .leaf p w n m, fuel + 1, hd, _ => by
    simp only [Desc] at hd
    simp [Spec.visits, Spec.fits, CTree.root, CTree.addrs, hd.1]
  | .node a op l r, .node op' l' r', fuel + 1, hd, hf => by
    simp only [Desc] at hd
    simp only [Made.depth] at hf
    have h1 := hd.2.2.1.visits (fuel := fuel) (by omega)
    have h2 := hd.2.2.2.visits (fuel := fuel) (by omega)
    simp [Spec.visits, Spec.fits, CTree.addrs, hd.1, h1, h2]
  | .leaf _, .node _ _ _, _, hd, _ => hd.elim
  | .node _ _ _ _, .leaf _ _ _ _, _, hd, _ => hd.elim

theorem Desc.represents {s : Scene} : ∀ {T : CTree} {M : Made}, Desc s T M → Represents s.heap T.root M.solid
  | .leaf a, .leaf p w n m, hd => by
    simp only [Desc] at hd
    simp only [Made.solid, CTree.root]
    rw [← hd.2.1]
    exact .leaf hd.1
  | .node a op l r, .node op' l' r', hd => by
    simp only [Desc] at hd
    simp only [Made.solid, CTree.root]
    rw [← hd.2.1]
    exact .node hd.1 hd.2.2.1.represents hd.2.2.2.represents
  | .leaf _, .node _ _ _, hd => hd.elim
  | .node _ _ _ _, .leaf _ _ _ _, hd => hd.elim

theorem Desc.intersectable {s : Scene} {T : CTree} {M : Made} (hd : Desc s T M) : (s.heap.obj T.root).kind.intersectable := by
  cases T <;> cases M <;> simp only [Desc] at hd <;> simp [CTree.root, hd.1, Kind.intersectable]

/-- every object of the tree is below its root -/
theorem Desc.under {s : Scene} : ∀ {T : CTree} {M : Made}, Desc s T M → ∀ (b : ℕ), Under s.heap b T.root →
    ∀ x ∈ T.addrs, Under s.heap b x
  | .leaf a, _, _, b, hb, x, hx => by simp only [CTree.addrs, List.mem_singleton] at hx; rw [hx]; exact hb
  | .node a op l r, .node op' l' r', hd, b, hb, x, hx => by
    simp only [Desc] at hd
    simp only [CTree.addrs, List.mem_cons, List.mem_append] at hx
    rcases hx with rfl | hx | hx
    · exact hb
    · exact hd.2.2.1.under b (.step hb ⟨_, _, _, hd.1, Or.inl rfl⟩) x hx
    · exact hd.2.2.2.under b (.step hb ⟨_, _, _, hd.1, Or.inr rfl⟩) x hx
  | .node _ _ _ _, .leaf _ _ _ _, hd, _, _, _, _ => hd.elim

/-- the children of objects of the tree are in the tree -/
theorem Desc.closed {s : Scene} : ∀ {T : CTree} {M : Made}, Desc s T M → ∀ p ∈ T.addrs, ∀ x, IsParent s.heap p x → x ∈ T.addrs
  | .leaf a, .leaf _ _ _ _, hd, p, hp, x, hx => by
    simp only [Desc] at hd
    simp only [CTree.addrs, List.mem_singleton] at hp
    obtain ⟨op, l, r, hk, -⟩ := hx
    rw [hp, hd.1] at hk
    simp at hk
  | .node a op l r, .node op' l' r', hd, p, hp, x, hx => by
    simp only [Desc] at hd
    simp only [CTree.addrs, List.mem_cons, List.mem_append] at hp ⊢
    rcases hp with rfl | hp | hp
    · obtain ⟨op, l, r, hk, hx⟩ := hx
      rw [hd.1] at hk
      simp only [Kind.csg.injEq] at hk
      rcases hx with rfl | rfl
      · exact Or.inr (Or.inl (hk.2.1 ▸ CTree.root_mem _))
      · exact Or.inr (Or.inr (hk.2.2 ▸ CTree.root_mem _))
    · exact Or.inr (Or.inl (hd.2.2.1.closed p hp x hx))
    · exact Or.inr (Or.inr (hd.2.2.2.closed p hp x hx))
  | .leaf _, .node _ _ _, hd, _, _, _, _ => hd.elim
  | .node _ _ _ _, .leaf _ _ _ _, hd, _, _, _, _ => hd.elim

theorem Desc.under_iff {s : Scene} {T : CTree} {M : Made} (hd : Desc s T M) (x : ℕ) : Under s.heap T.root x ↔ x ∈ T.addrs := by
  constructor
  · intro hu
    induction hu with
    | refl => exact T.root_mem
    | step _ hp ih => exact hd.closed _ ih _ hp
  · exact hd.under _ .refl x

variable (argsort : List EReal → List ℕ) (fuel : ℕ)

/-- a scene made by a tidy history (see `Spec/CsgHistory.lean`) in which every object has an affine world matrix, i.e. `transform`
was only given affine matrices -/
structure Ready (s : Scene) : Prop where
  tidy : TidyReaches argsort fuel Heap.empty s.heap
  rows : ∀ b < s.heap.size, (s.heap.obj b).world 3 = ![0, 0, 0, 1]

/-- the object is as it was -/
def Untouched (s s' : Scene) (a : ℕ) : Prop :=
  (s'.heap.obj a).kind = (s.heap.obj a).kind ∧ (s'.heap.obj a).world = (s.heap.obj a).world ∧
    (∀ q, (s.heap.obj a).kind = .prim q → (s'.heap.obj a).nscale = (s.heap.obj a).nscale) ∧ s'.material a = s.material a

theorem Untouched.trans {s s' s'' : Scene} {a : ℕ} (h1 : Untouched s s' a) (h2 : Untouched s' s'' a) : Untouched s s'' a :=
  ⟨h2.1.trans h1.1, h2.2.1.trans h1.2.1, fun q hq => (h2.2.2.1 q (h1.1.trans hq)).trans (h1.2.2.1 q hq), h2.2.2.2.trans h1.2.2.2⟩

/-- State `s` during a construction started in `s0`: the listed objects are under construction. -/
structure Ctx (s0 s : Scene) (Γ : List (CTree × Made)) : Prop where
  ready : Ready argsort fuel s
  grow : s0.heap.size ≤ s.heap.size
  old : ∀ a < s0.heap.size, Untouched s0 s a
  parts : ∀ e ∈ Γ, Desc s e.1 e.2 ∧ e.1.addrs.Nodup ∧ (∀ x ∈ e.1.addrs, s0.heap.size ≤ x ∧ x < s.heap.size) ∧ Top s.heap e.1.root
  sep : Γ.Pairwise fun e f => List.Disjoint e.1.addrs f.1.addrs

/-- running `x` from `s0` builds the object described by `M` -/
def Makes (s0 : Scene) (x : Build ℕ) (M : Made) : Prop := ∃ s T, x s0 = (.ok T.root, s) ∧ Ctx argsort fuel s0 s [(T, M)]

variable {argsort fuel}

theorem Ready.inv {s : Scene} (h : Ready argsort fuel s) : Inv s.heap :=
  reaches_inv argsort empty_inv (TidyReaches.reaches argsort h.tidy)

theorem Ready.good {s : Scene} (h : Ready argsort fuel s) : ∀ b < s.heap.size, GoodWorld (s.heap.obj b).world :=
  fun b hb => ⟨(h.inv.synced b hb).1, h.rows b hb, (h.inv.synced b hb).2.2.2.1⟩

theorem Ctx.start {s0 : Scene} (h : Ready argsort fuel s0) : Ctx argsort fuel s0 s0 [] :=
  ⟨h, le_refl _, fun _ _ => ⟨rfl, rfl, fun _ _ => rfl, rfl⟩, by simp, by simp⟩

theorem Ctx.perm {s0 s : Scene} {Γ Γ' : List (CTree × Made)} (h : Ctx argsort fuel s0 s Γ) (hp : Γ.Perm Γ') :
    Ctx argsort fuel s0 s Γ' :=
  ⟨h.ready, h.grow, h.old, fun e he => h.parts e (hp.mem_iff.2 he),
    (hp.pairwise_iff fun {_ _} h => h.symm).1 h.sep⟩

theorem Build.bind_ok {α β : Type} {x : Build α} {f : α → Build β} {s s' : Scene} {a : α} (h : x s = (.ok a, s')) :
    (x >>= f) s = f a s' := by
  change (match x s with | (.ok a, s') => f a s' | (.error e, s') => (.error e, s')) = _
  rw [h]

theorem Build.bind_error {α β : Type} {x : Build α} {f : α → Build β} {s s' : Scene} {e : CompErr} (h : x s = (.error e, s')) :
    (x >>= f) s = (.error e, s') := by
  change (match x s with | (.ok a, s') => f a s' | (.error e, s') => (.error e, s')) = _
  rw [h]

/-- a new surface -/
theorem Ctx.surface {s0 s : Scene} {Γ : List (CTree × Made)} (h : Ctx argsort fuel s0 s Γ) (p : Prim) (m : Option Material)
    (hp : ¬ p.rejected := by simp [Prim.rejected]) :
    ∃ s', Build.surface p m s = (.ok s.heap.size, s') ∧
      Ctx argsort fuel s0 s' ((.leaf s.heap.size, .leaf p 1 1 m) :: Γ) := by
  obtain ⟨mat, hdef⟩ : ∃ mat : ℕ → Material, mat = match m with
        | some m => Function.update s.material s.heap.size m
        | none => s.material := ⟨_, rfl⟩
  refine ⟨{ heap := newPrim s.heap p, material := mat }, by rw [hdef]; exact if_neg hp, ?_⟩
  have hself := alloc_obj_self s.heap (.prim p) (boundingBox (cornerPoints p.boundSpans)) [.box s.heap.size]
  have hlt : ∀ {a : ℕ}, a < s.heap.size → (newPrim s.heap p).obj a = s.heap.obj a := fun ha =>
    alloc_obj_lt s.heap (.prim p) (boundingBox (cornerPoints p.boundSpans)) [.box s.heap.size] ha
  have hmat : ∀ a < s.heap.size, mat a = s.material a := by
    intro a ha
    rw [hdef]
    cases m with
    | none => rfl
    | some m => simp [Function.update_apply, ha.ne]
  have hu : ∀ a < s.heap.size, Untouched s { heap := newPrim s.heap p, material := mat } a := fun a ha => by
    exact ⟨by simp only [hlt ha], by simp only [hlt ha], fun _ _ => by simp only [hlt ha], hmat a ha⟩
  have htop : ∀ x, (x < s.heap.size → Top s.heap x) → x ≤ s.heap.size → Top (newPrim s.heap p) x := by
    intro x hx hle q hq hpar
    obtain ⟨op, l, r, hk, hlr⟩ := hpar
    rcases Nat.lt_succ_iff_lt_or_eq.1 hq with hq | hq
    · rw [hlt hq] at hk
      have hpar : IsParent s.heap q x := ⟨op, l, r, hk, hlr⟩
      have := (h.ready.inv.children q x hq hpar).1
      exact hx (by omega) q hq hpar
    · rw [hq] at hk
      change ((s.heap.alloc _ _ _).obj s.heap.size).kind = _ at hk
      rw [hself] at hk
      simp at hk
  refine ⟨⟨?_, ?_⟩, ?_, ?_, ?_, ?_⟩
  · exact TidyReaches.step (.newPrim p) h.ready.tidy trivial trivial rfl
  · intro b hb
    rcases Nat.lt_succ_iff_lt_or_eq.1 hb with hb | hb
    · simp only [hlt hb]; exact h.ready.rows b hb
    · rw [hb]
      change ((s.heap.alloc _ _ _).obj s.heap.size).world 3 = _
      rw [hself]
      exact row_one
  · exact h.grow.trans (Nat.le_succ _)
  · intro a ha
    have h1 := h.old a ha
    have h2 := hu a (lt_of_lt_of_le ha h.grow)
    exact h1.trans h2
  · intro e he
    rcases List.mem_cons.1 he with rfl | he
    · refine ⟨?_, by simp [CTree.addrs], ?_, ?_⟩
      · simp only [Desc]
        change ((s.heap.alloc _ _ _).obj s.heap.size).kind = _ ∧ ((s.heap.alloc _ _ _).obj s.heap.size).world = _ ∧
          ((s.heap.alloc _ _ _).obj s.heap.size).nscale = _ ∧ _
        rw [hself]
        refine ⟨rfl, rfl, rfl, ?_⟩
        rintro x rfl
        simp [hdef]
      · intro x hx
        simp only [CTree.addrs, List.mem_singleton] at hx
        rw [hx]; exact ⟨h.grow, Nat.lt_succ_self _⟩
      · exact htop _ (fun h => absurd h (lt_irrefl _)) (le_refl _)
    · obtain ⟨h1, h2, h3, h4⟩ := h.parts e he
      exact ⟨h1.frame fun x hx => hu x (h3 x hx).2, h2, fun x hx => ⟨(h3 x hx).1, lt_trans (h3 x hx).2 (Nat.lt_succ_self _)⟩,
        htop _ (fun _ => h4) (h3 _ e.1.root_mem).2.le⟩
  · refine List.pairwise_cons.2 ⟨fun e he x hx hx' => ?_, h.sep⟩
    simp only [CTree.addrs, List.mem_singleton] at hx
    have := ((h.parts e he).2.2.1 x hx').2
    omega

/-- the material of a new surface is assigned -/
theorem Ctx.setMaterial {s0 s : Scene} {Γ : List (CTree × Made)} {a : ℕ} {p : Prim} {w : Mat4} {n : ℝ} {m : Option Material}
    (h : Ctx argsort fuel s0 s ((.leaf a, .leaf p w n m) :: Γ)) (m' : Material) :
    ∃ s', Build.setMaterial a m' s = (.ok (), s') ∧ Ctx argsort fuel s0 s' ((.leaf a, .leaf p w n (some m')) :: Γ) := by
  refine ⟨_, rfl, ⟨h.ready.tidy, h.ready.rows⟩, h.grow, ?_, ?_, ?_⟩
  · intro b hb
    have h1 := h.old b hb
    have h2 := ((h.parts _ List.mem_cons_self).2.2.1 a (by simp [CTree.addrs])).1
    have hne : b ≠ a := by omega
    refine ⟨h1.1, h1.2.1, h1.2.2.1, ?_⟩
    simp only [Function.update_apply, hne, if_false]
    exact h1.2.2.2
  · intro e he
    rcases List.mem_cons.1 he with rfl | he
    · obtain ⟨h1, h2, h3, h4⟩ := h.parts _ List.mem_cons_self
      refine ⟨?_, h2, h3, h4⟩
      simp only [Desc] at h1 ⊢
      refine ⟨h1.1, h1.2.1, h1.2.2.1, ?_⟩
      rintro x hx
      simp only [Option.some.injEq] at hx
      simp [hx]
    · obtain ⟨h1, h2, h3, h4⟩ := h.parts e (List.mem_cons_of_mem _ he)
      have hd := (List.pairwise_cons.1 h.sep).1 e he
      refine ⟨h1.frame fun x hx => ⟨rfl, rfl, fun _ _ => rfl, ?_⟩, h2, h3, h4⟩
      have hne : x ≠ a := by
        rintro rfl
        exact hd (by simp [CTree.addrs]) hx
      simp [Function.update_apply, hne]
  · have := h.sep
    rw [List.pairwise_cons] at this ⊢
    exact this

theorem good_rigid {m : Mat4} (hm : Rigid m) (w : Mat4) (hw : GoodWorld w) : GoodWorld (m * w) := by
  refine ⟨by rw [det_mul, hm.2.1, one_mul]; exact hw.1, row_mul hm.1 hw.2.1, ?_⟩
  rw [← mulVec_mulVec, hm.2.2 _ ?_]
  · exact hw.2.2
  · rw [mulVec4, hw.2.1]; simp [vector]

/-- a rigid movement of an object under construction -/
theorem Ctx.call {s0 s : Scene} {Γ : List (CTree × Made)} {T : CTree} {M : Made} (h : Ctx argsort fuel s0 s ((T, M) :: Γ))
    (hf : M.depth ≤ fuel) {mv : Movement} (hmv : mv.IsRigid) {m : Mat4} (hm : mv.matrix = .ok m) :
    ∃ s', Build.call argsort fuel T.root mv s = (.ok T.root, s') ∧ Ctx argsort fuel s0 s' ((T, M.map m) :: Γ) := by
  have hrig := hmv.rigid hm
  obtain ⟨hd, hnd, haddr, htop⟩ := h.parts _ List.mem_cons_self
  simp only at hd hnd haddr htop
  have hi := h.ready.inv
  have hlt := (haddr _ T.root_mem).2
  obtain ⟨hv, hfit⟩ := hd.visits hf
  obtain ⟨h', hr, hg'⟩ := transform_succeeds argsort (good_rigid hrig) fuel T.root hi h.ready.good hlt hfit
  have hcall : callMovement argsort fuel s.heap T.root mv = (h', none) := by
    unfold callMovement; rw [hm]; exact hr
  obtain ⟨-, hst, hw⟩ := transform_ok argsort m fuel T.root hi hlt hr
  rw [hv] at hw
  have hw1 : ∀ x ∈ T.addrs, (h'.obj x).world = m * (s.heap.obj x).world := by
    intro x hx
    rw [hw x]
    show m ^ List.count x T.addrs * _ = _
    rw [List.count_eq_one_of_mem hnd hx, pow_one]
  have hw0 : ∀ x, x ∉ T.addrs → (h'.obj x).world = (s.heap.obj x).world := by
    intro x hx
    rw [hw x]
    show m ^ List.count x T.addrs * _ = _
    rw [List.count_eq_zero_of_not_mem hx, pow_zero, one_mul]
  have hu : ∀ x, x ∉ T.addrs → Untouched s { s with heap := h' } x := fun x hx =>
    ⟨(hst.2.2 x).1, hw0 x hx, fun _ _ => (hst.2.2 x).2.2.1, rfl⟩
  refine ⟨{ s with heap := h' }, ?_, ⟨?_, fun b hb => (hg' b hb).2.1⟩, ?_, ?_, ?_, ?_⟩
  · unfold Build.call; rw [hcall]
  · refine TidyReaches.step (.movement T.root mv) h.ready.tidy hlt ?_ hcall
    simp only [TidyCmd]
    cases fuel with
    | zero => trivial
    | succ f =>
      simp only [Allowed]
      cases T with
      | leaf a =>
        cases M with
        | leaf p w n x =>
          simp only [Desc] at hd
          simp only [CTree.root, hd.1]
          exact fun q hq hpar => absurd hpar (htop q hq)
        | node => exact hd.elim
      | node a op l r =>
        cases M with
        | leaf => exact hd.elim
        | node op' l' r' =>
          simp only [Desc] at hd
          simp only [CTree.root, hd.1]
          exact htop
  · exact h.grow.trans hst.1.ge
  · intro a ha
    have h1 := h.old a ha
    have h2 := hu a (fun hx => by have := (haddr a hx).1; omega)
    exact h1.trans h2
  · intro e he
    rcases List.mem_cons.1 he with rfl | he
    · refine ⟨hd.map fun x hx => ⟨(hst.2.2 x).1, hw1 x hx, fun _ _ => (hst.2.2 x).2.2.1, rfl⟩, hnd, fun x hx => ?_, (hst.top _).2 htop⟩
      exact ⟨(haddr x hx).1, by rw [hst.1]; exact (haddr x hx).2⟩
    · obtain ⟨h1, h2, h3, h4⟩ := h.parts e (List.mem_cons_of_mem _ he)
      refine ⟨h1.frame fun x hx => hu x fun hx' => ?_, h2, fun x hx => ?_, (hst.top _).2 h4⟩
      · exact (List.pairwise_cons.1 h.sep).1 e he hx' hx
      · exact ⟨(h3 x hx).1, by rw [hst.1]; exact (h3 x hx).2⟩
  · have := h.sep
    rw [List.pairwise_cons] at this ⊢
    exact this

/-- two objects under construction are combined -/
theorem Ctx.csg {s0 s : Scene} {Γ : List (CTree × Made)} {L R : CTree} {ML MR : Made}
    (h : Ctx argsort fuel s0 s ((L, ML) :: (R, MR) :: Γ)) (op : Operation)
    (hop : op = .difference ∨ ∃ p w n x, MR = .leaf p w n x) :
    ∃ s', Build.csg argsort op L.root R.root s = (.ok s.heap.size, s') ∧
      Ctx argsort fuel s0 s' ((.node s.heap.size op L R, Made.join op ML MR) :: Γ) := by
  obtain ⟨hdl, hnl, hal, htl⟩ := h.parts _ List.mem_cons_self
  obtain ⟨hdr, hnr, har, htr⟩ := h.parts _ (List.mem_cons_of_mem _ List.mem_cons_self)
  simp only at hdl hnl hal htl hdr hnr har htr
  have hi := h.ready.inv
  have hsep1 := (List.pairwise_cons.1 h.sep).1
  have hsep2 := (List.pairwise_cons.1 (List.pairwise_cons.1 h.sep).2).1
  have hLR : List.Disjoint L.addrs R.addrs := hsep1 _ List.mem_cons_self
  have hl := (hal _ L.root_mem).2
  have hr := (har _ R.root_mem).2
  have hkind := fun {a : ℕ} (ha : a < s.heap.size) => newCsg_kind_lt argsort s.heap op L.root R.root ha
  have hworld := fun {a : ℕ} (ha : a < s.heap.size) => newCsg_world_lt argsort s.heap op L.root R.root ha
  have hscale := fun {x : ℕ} {q : Prim} (hx : x < s.heap.size) (hq : (s.heap.obj x).kind = .prim q) =>
    newCsg_nscale argsort s.heap hi.toStruct op L.root R.root hl hr hdr.intersectable hx hq
  have hscale' : ∀ x < s.heap.size, x ∉ R.addrs → ∀ q, (s.heap.obj x).kind = .prim q →
      ((newCsg argsort s.heap op L.root R.root).obj x).nscale = (s.heap.obj x).nscale := by
    intro x hx hxr q hq
    rw [hscale hx hq, if_neg]
    rintro ⟨-, hu⟩
    exact hxr ((hdr.under_iff x).1 hu)
  have hu : ∀ x < s.heap.size, x ∉ R.addrs → Untouched s { s with heap := newCsg argsort s.heap op L.root R.root } x :=
    fun x hx hxr => ⟨hkind hx, hworld hx, fun q hq => hscale' x hx hxr q hq, rfl⟩
  have hsize := newCsg_size argsort s.heap op L.root R.root
  have htop : ∀ x < s.heap.size, x ≠ L.root → x ≠ R.root → Top s.heap x → Top (newCsg argsort s.heap op L.root R.root) x := by
    intro x hx h1 h2 ht q hq hpar
    rw [hsize] at hq
    rcases (newCsg_isParent argsort op L.root R.root q x hq).1 hpar with ⟨hq', hp'⟩ | ⟨-, h3 | h3⟩
    · exact ht q hq' hp'
    · exact h1 h3
    · exact h2 h3
  have hne : L.root ≠ R.root := fun e => hLR L.root_mem (e ▸ R.root_mem)
  refine ⟨_, rfl, ⟨?_, ?_⟩, ?_, ?_, ?_, ?_⟩
  · refine TidyReaches.step (.newCsg op L.root R.root) h.ready.tidy ⟨hl, hr, hdl.intersectable, hdr.intersectable⟩
      ⟨htl, htr, hne, ?_⟩ rfl
    rcases hop with hop | ⟨p, w, n, x, rfl⟩
    · exact Or.inl hop
    · right
      cases R with
      | leaf a => exact ⟨p, hdr.1⟩
      | node => exact hdr.elim
  · intro b hb
    change b < (newCsg argsort s.heap op L.root R.root).size at hb
    change ((newCsg argsort s.heap op L.root R.root).obj b).world 3 = _
    rw [hsize] at hb
    rcases Nat.lt_succ_iff_lt_or_eq.1 hb with hb | hb
    · rw [hworld hb]; exact h.ready.rows b hb
    · rw [hb, newCsg_world_self]; exact row_one
  · change _ ≤ (newCsg argsort s.heap op L.root R.root).size
    rw [hsize]; exact h.grow.trans (Nat.le_succ _)
  · intro a ha
    refine (h.old a ha).trans (hu a (lt_of_lt_of_le ha h.grow) fun hx => ?_)
    have := (har a hx).1
    omega
  · intro e he
    rcases List.mem_cons.1 he with rfl | he
    · refine ⟨⟨newCsg_kind_self argsort _ _ _ _, rfl, ?_, ?_⟩, ?_, ?_, ?_⟩
      · exact hdl.frame fun x hx => hu x (hal x hx).2 fun hx' => hLR hx hx'
      · split
        · rename_i ho
          refine hdr.flip fun x hx => ⟨hkind (har x hx).2, hworld (har x hx).2, fun q hq => ?_, rfl⟩
          exact (hscale (har x hx).2 hq).trans (if_pos ⟨ho, (hdr.under_iff x).2 hx⟩)
        · rename_i ho
          refine hdr.frame fun x hx => ⟨hkind (har x hx).2, hworld (har x hx).2, fun q hq => ?_, rfl⟩
          exact (hscale (har x hx).2 hq).trans (if_neg fun hh => ho hh.1)
      · simp only [CTree.addrs, List.nodup_cons, List.mem_append, List.nodup_append']
        refine ⟨?_, hnl, hnr, hLR⟩
        rintro (hx | hx)
        · have := (hal _ hx).2; omega
        · have := (har _ hx).2; omega
      · intro x hx
        change _ ∧ x < (newCsg argsort s.heap op L.root R.root).size
        rw [hsize]
        simp only [CTree.addrs, List.mem_cons, List.mem_append] at hx
        rcases hx with rfl | hx | hx
        · exact ⟨h.grow, Nat.lt_succ_self _⟩
        · exact ⟨(hal x hx).1, lt_trans (hal x hx).2 (Nat.lt_succ_self _)⟩
        · exact ⟨(har x hx).1, lt_trans (har x hx).2 (Nat.lt_succ_self _)⟩
      · intro q hq hpar
        change q < (newCsg argsort s.heap op L.root R.root).size at hq
        rw [hsize] at hq
        rcases (newCsg_isParent argsort op L.root R.root q _ hq).1 hpar with ⟨hq', hp'⟩ | ⟨-, h3 | h3⟩
        · have := (hi.children q _ hq' hp').1
          simp only [CTree.root] at this
          omega
        · rw [CTree.root_node] at h3; omega
        · rw [CTree.root_node] at h3; omega
    · obtain ⟨h1, h2, h3, h4⟩ := h.parts e (List.mem_cons_of_mem _ (List.mem_cons_of_mem _ he))
      have d1 := hsep1 e (List.mem_cons_of_mem _ he)
      have d2 := hsep2 e he
      refine ⟨h1.frame fun x hx => hu x (h3 x hx).2 fun hx' => d2 hx' hx, h2, fun x hx => ⟨(h3 x hx).1, ?_⟩, ?_⟩
      · change x < (newCsg argsort s.heap op L.root R.root).size
        rw [hsize]; exact lt_trans (h3 x hx).2 (Nat.lt_succ_self _)
      · refine htop _ (h3 _ e.1.root_mem).2 ?_ ?_ h4
        · intro e'; exact d1 (e' ▸ L.root_mem) e.1.root_mem
        · intro e'; exact d2 (e' ▸ R.root_mem) e.1.root_mem
  · refine List.pairwise_cons.2 ⟨fun e he x hx hx' => ?_, (List.pairwise_cons.1 (List.pairwise_cons.1 h.sep).2).2⟩
    simp only [CTree.addrs, List.mem_cons, List.mem_append] at hx
    rcases hx with rfl | hx | hx
    · have := ((h.parts e (List.mem_cons_of_mem _ (List.mem_cons_of_mem _ he))).2.2.1 _ hx').2
      omega
    · exact hsep1 e (List.mem_cons_of_mem _ he) hx hx'
    · exact hsep2 e he hx hx'

end PyRayT
