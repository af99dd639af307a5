import Verif.Proofs.Screen
import Verif.Proofs.Components4
import Verif.Props.Ends

/-!
# A component in a closed room

Concrete cases for theorems on traces: one component inside an absorbing sphere of radius 1000, so that no ray is lost.
-/

namespace PyRayT

open Classical Matrix Spec

variable {argsort : List EReal → List ℕ} {fuel : ℕ}

/-- the room: the sphere is made first -/
theorem room_made : ∃ s0, Build.surface (.sphere 1000) (some .absorber) ⟨Heap.empty, fun _ => .absorber⟩ = (.ok 0, s0) ∧ Ready argsort fuel s0 ∧
    0 < s0.heap.size ∧ (s0.heap.obj 0).kind = .prim (.sphere 1000) ∧ (s0.heap.obj 0).world = 1 ∧ s0.material 0 = .absorber := by
  obtain ⟨s0, e, c⟩ := (Ctx.start (ready_empty (argsort := argsort) (fuel := fuel) fun _ => .absorber)).surface (.sphere 1000) (some .absorber)
  have hp := c.parts _ List.mem_cons_self
  have hd := hp.1
  simp only [Desc] at hd
  exact ⟨s0, e, c.ready, (hp.2.2.1 0 (List.mem_singleton.2 rfl)).2, hd.1, hd.2.1, hd.2.2.2 _ rfl⟩

theorem Desc.surface_addrs {s : Scene} : ∀ {T : CTree} {M : Made} (d : ℕ), Desc s T M → ((surfaceIds d s.heap T.root).map Prod.snd).Sublist T.addrs
  | _, _, 0, _ => by simp [surfaceIds]
  | .leaf a, .leaf p w n m, d + 1, hd => by
    simp only [Desc] at hd
    simp [surfaceIds, CTree.root, hd.1, CTree.addrs]
  | .node a op l r, .node op' l' r', d + 1, hd => by
    simp only [Desc] at hd
    simp only [surfaceIds, CTree.root, hd.1, CTree.addrs, List.map_append]
    exact List.Sublist.cons _ ((Desc.surface_addrs d hd.2.2.1).append (Desc.surface_addrs d hd.2.2.2))
  | .leaf _, .node _ _ _, _, hd => by simp [Desc] at hd
  | .node _ _ _ _, .leaf _ _ _ _, _, hd => by simp [Desc] at hd

/-- the component and the room are a bench -/
theorem room_bench_of {s0 s : Scene} (hsz : 0 < s0.heap.size) (hk : (s0.heap.obj 0).kind = .prim (.sphere 1000)) (hmat : s0.material 0 = .absorber)
    {T : CTree} {M : Made} (c : Ctx argsort fuel s0 s [(T, M)]) {depth : ℕ} (hd : M.depth ≤ depth + 1) (hl : ∀ l ∈ M.leaves, Sized l.1)
    {col : Col} (hcol : col.generation = 0 ∧ col.ray.o 3 = 1 ∧ col.ray.d 3 = 0 ∧ norm4 col.ray.d = 1)
    (hidx : 0 < col.index) (hm : ∀ l ∈ M.leaves, ∃ m, l.2.2.2 = some m ∧ ∀ g, m = .glass g → 0 < g.indexAt col.wavelength) :
    Bench argsort fuel s [T.root, 0] (depth + 1) [fun _ => [col]] 1 := by
  obtain ⟨hdesc, hnd, haddr, -⟩ := c.parts _ List.mem_cons_self
  simp only at hdesc hnd haddr
  have hk' : (s.heap.obj 0).kind = .prim (.sphere 1000) := (c.old 0 (by omega)).1.trans hk
  have h0 : surfaceIds (depth + 1) s.heap 0 = [((s.heap.obj 0).oid, 0)] := by simp only [surfaceIds, hk']
  have hin : ∀ e ∈ surfaceIds (depth + 1) s.heap T.root, e.2 ∈ T.addrs := fun e he =>
    (hdesc.surface_addrs (depth + 1)).subset (List.mem_map.2 ⟨e, he, rfl⟩)
  refine ⟨⟨TidyReaches.reaches argsort c.ready.tidy, c.ready.rows⟩, ?_, ?_, ?_, ?_, ?_⟩
  · intro a ha
    simp only [List.mem_cons, List.not_mem_nil, or_false] at ha
    rcases ha with rfl | rfl
    · exact (haddr _ T.root_mem).2
    · have := c.grow; omega
  · simp only [List.flatMap_cons, List.flatMap_nil, List.append_nil, h0, List.map_cons, List.map_nil]
    rw [List.nodup_append]
    refine ⟨hnd.sublist (hdesc.surface_addrs (depth + 1)), by simp, ?_⟩
    intro a ha b hb
    simp only [List.mem_singleton] at hb
    have := (haddr a ((hdesc.surface_addrs (depth + 1)).subset ha)).1
    omega
  · intro a ha x id p hx hkx
    simp only [List.mem_cons, List.not_mem_nil, or_false] at ha
    rcases ha with rfl | rfl
    · obtain ⟨l, hll, hrel⟩ := forall₂_mem_left (hdesc.surfaces hd) hx
      have := hrel.1
      rw [hkx] at this
      rw [Kind.prim.inj this]
      exact hl l hll
    · rw [h0] at hx
      simp only [List.mem_singleton, Prod.mk.injEq] at hx
      rw [hx.2, hk'] at hkx
      rw [← Kind.prim.inj hkx]
      show (1000 : ℝ) ≠ 0
      norm_num
  · intro f hf c hc
    simp only [List.mem_singleton] at hf
    subst hf
    simp only [List.mem_singleton] at hc
    subst hc
    exact hcol
  · intro f hf c' hc
    simp only [List.mem_singleton] at hf
    subst hf
    simp only [List.mem_singleton] at hc
    subst hc
    refine ⟨hidx, fun a ha x id g hx hgx => ?_⟩
    simp only [List.mem_cons, List.not_mem_nil, or_false] at ha
    rcases ha with rfl | rfl
    · obtain ⟨l, hll, hrel⟩ := forall₂_mem_left (hdesc.surfaces hd) hx
      obtain ⟨m, hlm, hg⟩ := hm l hll
      exact hg g ((hrel.2.2.2 _ hlm).symm.trans hgx)
    · rw [h0] at hx
      simp only [List.mem_singleton, Prod.mk.injEq] at hx
      rw [hx.2, (c.old 0 (by omega)).2.2.2, hmat] at hgx
      cases hgx

/-- the same for a component of one material -/
theorem room_bench {s0 s : Scene} (hsz : 0 < s0.heap.size) (hk : (s0.heap.obj 0).kind = .prim (.sphere 1000)) (hmat : s0.material 0 = .absorber)
    {T : CTree} {M : Made} (c : Ctx argsort fuel s0 s [(T, M)]) {depth : ℕ} (hd : M.depth ≤ depth + 1) (hl : ∀ l ∈ M.leaves, Sized l.1)
    {m : Material} (hm : ∀ l ∈ M.leaves, l.2.2.2 = some m) {col : Col} (hcol : col.generation = 0 ∧ col.ray.o 3 = 1 ∧ col.ray.d 3 = 0 ∧ norm4 col.ray.d = 1)
    (hidx : 0 < col.index) (hg : ∀ g, m = .glass g → 0 < g.indexAt col.wavelength) :
    Bench argsort fuel s [T.root, 0] (depth + 1) [fun _ => [col]] 1 :=
  room_bench_of hsz hk hmat c hd hl hcol hidx fun l hll => ⟨m, hm l hll, hg⟩

/-- The room from inside: a row near the origin with a hit of the component soon ends on the component, and the ray goes on. -/
theorem room_step {s : Scene} {a p depth : ℕ} {sources : List (ℕ → List Col)} {n : ℕ} {limit : ℤ}
    (b : Bench argsort fuel s [a, p] (depth + 1) sources n) (ha : IsArgsort argsort)
    {k : ℕ} {t' : Tracer} (ht : Tracer.Traces k (Tracer.new sources ([a, p].map (s.component argsort (depth + 1))) n limit) t')
    (hk : (s.heap.obj p).kind = .prim (.sphere 1000)) (hT : (s.heap.obj p).objT = 1) {r : Row} (hr : r ∈ t'.frame)
    (hm : ∀ e ∈ surfaceIds (depth + 1) s.heap a, r.surface = (e.1 : ℤ) → s.material e.2 ≠ .absorber) (hstart : ∀ i, |r.start i| ≤ 20)
    (hhit : ∃ w : ℝ, 0 < w ∧ w ≤ 25 ∧ (w : EReal) ∈ (intersectObj argsort (depth + 1) s.heap a (rowRay r)).1) (hgen : r.generation + 1 ≠ limit) :
    (∃ e ∈ surfaceIds (depth + 1) s.heap a, r.surface = (e.1 : ℤ)) ∧ ∃ r' ∈ t'.frame, Follows r r' := by
  have ok := b.ok ha limit
  have hu := (C35_unit_tilts ok ht r hr).1
  obtain ⟨d, d0, hn, hat⟩ := row_arrives ok ht hr
  obtain ⟨w, w0, w1, hw⟩ := hhit
  have hd : d ≤ 25 := by
    have := hn.2.1 (s.component argsort (depth + 1) a) (by simp [Tracer.new]) w hw (by exact_mod_cast w0)
    exact (EReal.coe_le_coe_iff.1 this).trans w1
  have hp0 : surfaceIds (depth + 1) s.heap p = [((s.heap.obj p).oid, p)] := by simp only [surfaceIds, hk]
  have hsq : ∀ {A B C K : ℝ}, |A| ≤ K → |B| ≤ K → |C| ≤ K → A ^ 2 + B ^ 2 + C ^ 2 ≤ 3 * K ^ 2 := by
    intro A B C K h1 h2 h3
    have k1 := sq_le_sq' (abs_le.1 h1).1 (abs_le.1 h1).2
    have k2 := sq_le_sq' (abs_le.1 h2).1 (abs_le.1 h2).2
    have k3 := sq_le_sq' (abs_le.1 h3).1 (abs_le.1 h3).2
    linarith
  have hsurf : ∃ e ∈ surfaceIds (depth + 1) s.heap a, r.surface = (e.1 : ℤ) := by
    obtain ⟨a', ha', x, id, hx, hid, hmem⟩ := C25_surface argsort ha s [a, p] (depth + 1) _ d _ hn
    simp only [List.mem_cons, List.not_mem_nil, or_false] at ha'
    rcases ha' with rfl | rfl
    · exact ⟨_, hx, hid⟩
    · exfalso
      rw [hp0] at hx
      simp only [List.mem_singleton, Prod.mk.injEq] at hx
      rw [hx.2] at hmem
      have := (screen_hits (argsort := argsort) (ρ := 100) hk hT (by norm_num) (by norm_num) (ray := rowRay r) (by
        simpa [rowRay, vector] using hu) (by
        have := hsq (hstart 0) (hstart 1) (hstart 2)
        simp [rowRay, point]
        linarith) 0).2 d hmem d0
      linarith
  refine ⟨hsurf, ?_⟩
  by_contra hno
  push Not at hno
  obtain ⟨a', ha', x, id, hx, hid, hcase⟩ := C89_endings b ha ht hr hno
  obtain ⟨e, he, hes⟩ := hsurf
  have hxe : x = e.2 := b.same ha' (by simp) hx (id' := e.1) (x' := e.2) he (by exact_mod_cast hid.symm.trans hes)
  rcases hcase with h | ⟨-, h⟩ | ⟨u, n', hu3, huu, -, hmiss⟩
  · exact hm e he hes (hxe ▸ h)
  · exact hgen h
  · have hu1 : u 0 ^ 2 + u 1 ^ 2 + u 2 ^ 2 = 1 := by
      rw [← huu]; simp [dot4, hu3]; ring
    have htilt : ∀ i, |r.tilt i| ≤ 1 := by
      intro i
      rw [← sq_le_one_iff_abs_le_one]
      have h : i = 0 ∨ i = 1 ∨ i = 2 := by fin_cases i <;> simp
      rcases h with rfl | rfl | rfl <;> nlinarith [sq_nonneg (r.tilt 0), sq_nonneg (r.tilt 1), sq_nonneg (r.tilt 2)]
    have hul : ∀ i : Fin 3, |u i.castSucc| ≤ 1 := by
      intro i
      rw [← sq_le_one_iff_abs_le_one]
      have h : i = 0 ∨ i = 1 ∨ i = 2 := by fin_cases i <;> simp
      rcases h with rfl | rfl | rfl
      · show u 0 ^ 2 ≤ 1
        nlinarith [sq_nonneg (u 0), sq_nonneg (u 1), sq_nonneg (u 2)]
      · show u 1 ^ 2 ≤ 1
        nlinarith [sq_nonneg (u 0), sq_nonneg (u 1), sq_nonneg (u 2)]
      · show u 2 ^ 2 ≤ 1
        nlinarith [sq_nonneg (u 0), sq_nonneg (u 1), sq_nonneg (u 2)]
    have hfin : ∀ i : Fin 3, r.finish i.castSucc = r.start i + d * r.tilt i := by
      intro i
      rw [← hat]
      fin_cases i <;> rfl
    have hpos : ∀ i : Fin 3, |r.finish i.castSucc + 1e-6 * u i.castSucc| ≤ 50 := by
      intro i
      rw [hfin]
      obtain ⟨a1, a2⟩ := abs_le.1 (hstart i)
      obtain ⟨b1, b2⟩ := abs_le.1 (htilt i)
      obtain ⟨c1, c2⟩ := abs_le.1 (hul i)
      rw [abs_le]
      norm_num
      constructor <;> nlinarith
    obtain ⟨v, v0, hv⟩ := (screen_hits (argsort := argsort) (ρ := 100) hk hT (by norm_num) (by norm_num)
      (ray := ⟨fun i => r.finish i + 1e-6 * u i, u⟩) hu1 (by
        have := hsq (hpos 0) (hpos 1) (hpos 2)
        simp only [Fin.castSucc_zero, Fin.castSucc_one] at this
        simp only
        refine this.trans (by norm_num)) depth).1
    exact hmiss (s.component argsort (depth + 1) p) (by simp) v hv ⟨by exact_mod_cast v0, EReal.coe_lt_top v⟩

/-- a trace with rows has a last row -/
theorem last_row {F : List Row} (h : F ≠ []) : ∃ r ∈ F, ∀ r' ∈ F, ¬ Follows r r' := by
  obtain ⟨r, hr, hmax⟩ := F.toFinset.exists_max_image Row.generation (List.toFinset_nonempty_iff F |>.2 h)
  refine ⟨r, List.mem_toFinset.1 hr, fun r' hr' hf => ?_⟩
  have := hmax r' (List.mem_toFinset.2 hr')
  rw [hf.2] at this
  linarith

/-- C89: in the room, the ray from the centre has a row, and the row is the last: the wall absorbs. -/
example (ha : IsArgsort argsort) : ∃ s k t', Bench argsort 1 s [0] 1 [fun _ => [⟨Spec.axisRay 1 0 0 0, 0, 100, 0.633, 1, 0⟩]] 1 ∧
    Tracer.Traces k (Tracer.new [fun _ => [⟨Spec.axisRay 1 0 0 0, 0, 100, 0.633, 1, 0⟩]] ([0].map (s.component argsort 1)) 1 5) t' ∧
    ∃ r ∈ t'.frame, (∀ r' ∈ t'.frame, ¬ Follows r r') ∧ s.material 0 = .absorber := by
  obtain ⟨s, -, h0, hsz, hk0, hw0, hm0⟩ := room_made (argsort := argsort) (fuel := 1)
  have hids : surfaceIds 1 s.heap 0 = [((s.heap.obj 0).oid, 0)] := by simp only [surfaceIds, hk0]
  have hu : norm4 (Spec.axisRay 1 0 0 0).d = 1 := by simp [Spec.axisRay, norm4, vector]
  have b : Bench argsort 1 s [0] 1 [fun _ => [⟨Spec.axisRay 1 0 0 0, 0, 100, 0.633, 1, 0⟩]] 1 := by
    refine ⟨⟨TidyReaches.reaches argsort h0.tidy, h0.rows⟩, by simpa using hsz, by simp [hids], ?_, ?_, ?_⟩
    · intro a ha x id p hx hkx
      simp only [List.mem_singleton] at ha
      rw [ha, hids, List.mem_singleton, Prod.mk.injEq] at hx
      rw [hx.2, hk0] at hkx
      rw [← Kind.prim.inj hkx]
      show (1000 : ℝ) ≠ 0
      norm_num
    · intro f hf c hc
      simp only [List.mem_singleton] at hf
      subst hf
      simp only [List.mem_singleton] at hc
      subst hc
      exact ⟨rfl, rfl, rfl, hu⟩
    · intro f hf c hc
      simp only [List.mem_singleton] at hf
      subst hf
      simp only [List.mem_singleton] at hc
      subst hc
      refine ⟨one_pos, fun a ha x id g hx hgx => ?_⟩
      simp only [List.mem_singleton] at ha
      rw [ha, hids, List.mem_singleton, Prod.mk.injEq] at hx
      rw [hx.2, hm0] at hgx
      cases hgx
  obtain ⟨k, t', htr, -, -, -⟩ := C26_terminates (Tracer.new [fun _ => [(⟨Spec.axisRay 1 0 0 0, 0, 100, 0.633, 1, 0⟩ : Col)]] ([0].map (s.component argsort 1)) 1 5)
    (by simp [Tracer.new]) (by simp [Tracer.new]) (by simp [Tracer.new])
  refine ⟨s, k, t', b, htr, ?_⟩
  have hT : (s.heap.obj 0).objT = 1 := by
    have hinv := reaches_inv argsort empty_inv b.history.reaches
    rw [(hinv.synced 0 hsz).2.1, hw0, inv_one]
  rcases C89_starts b ha htr (i := 0) rfl with ⟨r, hr, -⟩ | hmiss
  · obtain ⟨r', h1, h2⟩ := last_row (List.ne_nil_of_mem hr)
    exact ⟨r', h1, h2, hm0⟩
  · exfalso
    obtain ⟨v, v0, hv⟩ := (screen_hits (argsort := argsort) (ρ := 100) hk0 hT (by norm_num) (by norm_num)
      (ray := Spec.axisRay 1 0 0 0) (by simp [Spec.axisRay, vector]) (by simp [Spec.axisRay, point]) 0).1
    exact hmiss (s.component argsort 1 0) (by simp) v hv ⟨by exact_mod_cast v0, EReal.coe_lt_top v⟩

end PyRayT
