import Verif.Proofs.Reverse

/-! The hits of composites for the ray that goes the other way. -/

namespace PyRayT

open Classical Matrix Spec

theorem flip_flip (T : ℝ) (x : EReal) : (T : EReal) - ((T : EReal) - x) = x := by
  induction x with
  | coe x => rw [← EReal.coe_sub, ← EReal.coe_sub]; congr 1; ring
  | top => rfl
  | bot => rfl

theorem flip_inj (T : ℝ) : Function.Injective fun x : EReal => (T : EReal) - x := fun x y h => by
  have := congrArg (fun z : EReal => (T : EReal) - z) h
  simpa only [flip_flip] using this

/-- the hits from the two sides of a line -/
structure Mirrored (T : ℝ) (x y : List EReal × List ℤ) : Prop where
  lenx : x.2.length = x.1.length
  leny : y.2.length = y.1.length
  botx : ⊥ ∉ x.1
  boty : ⊥ ∉ y.1
  even : Even (x.1.countP fun e => decide (e < ⊤))
  count : ∀ v : ℝ, y.1.count (v : EReal) = x.1.count ((T - v : ℝ) : EReal)
  label : ∀ v s, Reported y v s ↔ Reported x (T - v) s
  single : ∀ v s s', Reported x v s → Reported x v s' → s = s'

theorem Spec.Reported.mem {x : List EReal × List ℤ} {v : ℝ} {s : ℤ} (h : Reported x v s) : (v : EReal) ∈ x.1 := by
  obtain ⟨i, h, -⟩ := h
  exact List.mem_of_getElem? h

theorem reported_of_mem {x : List EReal × List ℤ} (hl : x.2.length = x.1.length) {v : ℝ} (h : (v : EReal) ∈ x.1) : ∃ s, Reported x v s := by
  obtain ⟨i, hi, e⟩ := List.mem_iff_getElem.1 h
  exact ⟨x.2[i]'(by omega), i, by rw [List.getElem?_eq_getElem hi, e], List.getElem?_eq_getElem _⟩

theorem Mirrored.mem {T : ℝ} {x y : List EReal × List ℤ} (h : Mirrored T x y) (v : ℝ) : (v : EReal) ∈ y.1 ↔ ((T - v : ℝ) : EReal) ∈ x.1 := by
  rw [← List.count_pos_iff, ← List.count_pos_iff, h.count]

theorem Mirrored.perm {T : ℝ} {x y : List EReal × List ℤ} (h : Mirrored T x y) :
    (y.1.filter fun e => decide (e < ⊤)).Perm ((x.1.filter fun e => decide (e < ⊤)).map fun e => (T : EReal) - e) := by
  rw [List.perm_iff_count]
  intro a
  have e : ((x.1.filter fun e => decide (e < ⊤)).map fun e => (T : EReal) - e).count a = (x.1.filter fun e => decide (e < ⊤)).count ((T : EReal) - a) := by
    have := List.count_map_of_injective (x.1.filter fun e => decide (e < ⊤)) _ (flip_inj T) ((T : EReal) - a)
    rwa [flip_flip] at this
  rw [e]
  induction a with
  | coe a =>
    rw [List.count_filter (by simp), h.count a, EReal.coe_sub, List.count_filter]
    rw [← EReal.coe_sub]
    exact decide_eq_true (EReal.coe_lt_top _)
  | top =>
    rw [List.count_eq_zero.2, List.count_eq_zero.2]
    · rw [show (T : EReal) - ⊤ = ⊥ from rfl, List.mem_filter]
      exact fun hc => h.botx hc.1
    · simp
  | bot =>
    rw [List.count_eq_zero.2, List.count_eq_zero.2]
    · rw [EReal.coe_sub_bot, List.mem_filter]
      simp
    · rw [List.mem_filter]
      exact fun hc => h.boty hc.1

/-- which side of a hit free point is inside is the same from both ends -/
theorem Mirrored.parity {T : ℝ} {x y : List EReal × List ℤ} (h : Mirrored T x y) {v : ℝ} (hv : ((T - v : ℝ) : EReal) ∉ x.1) :
    (y.1.countP fun e => decide (e < (v : EReal))) % 2 = (x.1.countP fun e => decide (e < ((T - v : ℝ) : EReal))) % 2 := by
  have e1 : (y.1.countP fun e => decide (e < (v : EReal))) = ((y.1.filter fun e => decide (e < ⊤)).countP fun e => decide (e < (v : EReal))) := by
    rw [List.countP_filter]
    apply List.countP_congr
    intro a _
    simp only [decide_eq_true_eq, Bool.and_eq_true]
    exact ⟨fun h => ⟨h, h.trans_le le_top⟩, fun h => h.1⟩
  have e2 : (x.1.countP fun e => decide (e < ((T - v : ℝ) : EReal))) =
      ((x.1.filter fun e => decide (e < ⊤)).countP fun e => decide (e < ((T - v : ℝ) : EReal))) := by
    rw [List.countP_filter]
    apply List.countP_congr
    intro a _
    simp only [decide_eq_true_eq, Bool.and_eq_true]
    exact ⟨fun h => ⟨h, h.trans_le le_top⟩, fun h => h.1⟩
  rw [e1, e2, h.perm.countP_eq, List.countP_map]
  have he := h.even
  rw [List.countP_eq_length_filter] at he
  have hx : ∀ a ∈ x.1.filter fun e => decide (e < ⊤), a ≠ ⊤ ∧ a ≠ ⊥ ∧ a ≠ ((T - v : ℝ) : EReal) := by
    intro a ha
    rw [List.mem_filter, decide_eq_true_eq] at ha
    exact ⟨ha.2.ne, fun hc => h.botx (hc ▸ ha.1), fun hc => hv (hc ▸ ha.1)⟩
  generalize (x.1.filter fun e => decide (e < ⊤)) = l at he hx
  have key := List.length_eq_countP_add_countP (fun e => decide (e < ((T - v : ℝ) : EReal))) (l := l)
  have e3 : l.countP (fun a => decide ¬ decide (a < ((T - v : ℝ) : EReal)) = true) =
      l.countP ((fun e => decide (e < (v : EReal))) ∘ fun e => (T : EReal) - e) := by
    apply List.countP_congr
    intro a ha
    obtain ⟨h1, h2, h3⟩ := hx a ha
    lift a to ℝ using ⟨h1, h2⟩
    have h3 : a ≠ T - v := fun hc => h3 (by rw [hc])
    simp only [Function.comp_apply, decide_eq_true_eq, ← EReal.coe_sub, EReal.coe_lt_coe_iff, not_lt]
    constructor
    · intro h
      have := lt_of_le_of_ne h h3.symm
      linarith
    · intro h
      linarith
  rw [e3] at key
  rw [Nat.even_iff] at he
  omega

variable (argsort : List EReal → List ℕ)

theorem csgCombine_mem {x y : List EReal × List ℤ} (ha : IsArgsort argsort) (op : Operation) {v : EReal} (hv : v ≠ ⊤)
    (h : v ∈ (csgCombine argsort (-1) op x.1 x.2 y.1 y.2).1) (hx : x.2.length = x.1.length) (hy : y.2.length = y.1.length) : v ∈ x.1 ∨ v ∈ y.1 := by
  obtain ⟨i, hi, e⟩ := List.mem_iff_getElem.1 h
  have hlen := csgCombine_length argsort ha (-1) op x.1 x.2 y.1 y.2
  obtain ⟨k, hk⟩ := csgCombine_label argsort (-1) op x.1 x.2 y.1 y.2 hx hy i v _ (by rw [List.getElem?_eq_getElem hi, e]) hv
    (List.getElem?_eq_getElem (by omega))
  rcases hk with ⟨h, -⟩ | ⟨h, -⟩
  · exact Or.inl (List.mem_of_getElem? h)
  · exact Or.inr (List.mem_of_getElem? h)

/-- the merged hits -/
theorem mirrored_combine (ha : IsStableArgsort argsort) (op : Operation) {T : ℝ} {lx ly rx ry : List EReal × List ℤ}
    (hl : Mirrored T lx ly) (hr : Mirrored T rx ry) (ties : ∀ v : ℝ, (v : EReal) ∈ lx.1 → (v : EReal) ∉ rx.1)
    (slx : lx.1.Pairwise (· ≤ ·)) (srx : rx.1.Pairwise (· ≤ ·)) (sly : ly.1.Pairwise (· ≤ ·)) (sry : ry.1.Pairwise (· ≤ ·))
    (elx : Even lx.1.length) (erx : Even rx.1.length) (ely : Even ly.1.length) (ery : Even ry.1.length) :
    Mirrored T (csgCombine argsort (-1) op lx.1 lx.2 rx.1 rx.2) (csgCombine argsort (-1) op ly.1 ly.2 ry.1 ry.2) := by
  have lenx := csgCombine_length argsort ha.1 (-1) op lx.1 lx.2 rx.1 rx.2
  have leny := csgCombine_length argsort ha.1 (-1) op ly.1 ly.2 ry.1 ry.2
  have split : ∀ {a b : List EReal × List ℤ}, a.2.length = a.1.length → b.2.length = b.1.length → ∀ {v s},
      Reported (csgCombine argsort (-1) op a.1 a.2 b.1 b.2) v s → Reported a v s ∨ Reported b v s := by
    rintro a b h1 h2 v s ⟨i, e1, e2⟩
    obtain ⟨k, hk⟩ := csgCombine_label argsort (-1) op a.1 a.2 b.1 b.2 h1 h2 i v s e1 (EReal.coe_ne_top v) e2
    exact hk.imp (fun h => ⟨k, h⟩) (fun h => ⟨k, h⟩)
  have single : ∀ v s s', Reported (csgCombine argsort (-1) op lx.1 lx.2 rx.1 rx.2) v s →
      Reported (csgCombine argsort (-1) op lx.1 lx.2 rx.1 rx.2) v s' → s = s' := by
    intro v s s' h1 h2
    rcases split hl.lenx hr.lenx h1 with h1 | h1 <;> rcases split hl.lenx hr.lenx h2 with h2 | h2
    · exact hl.single _ _ _ h1 h2
    · exact absurd h2.mem (ties v h1.mem)
    · exact absurd h1.mem (ties v h2.mem)
    · exact hr.single _ _ _ h1 h2
  have count : ∀ v : ℝ, (csgCombine argsort (-1) op ly.1 ly.2 ry.1 ry.2).1.count (v : EReal) =
      (csgCombine argsort (-1) op lx.1 lx.2 rx.1 rx.2).1.count ((T - v : ℝ) : EReal) := by
    intro v
    rw [(csgCombine_perm argsort ha.1 _ _ _ _ _ _).count_eq, (csgCombine_perm argsort ha.1 _ _ _ _ _ _).count_eq]
    by_cases hm : ((T - v : ℝ) : EReal) ∈ lx.1
    · have hn := ties _ hm
      rw [count_left argsort ha _ _ op ely ery sly sry _ (EReal.coe_ne_top _) (fun h => hn ((hr.mem v).1 h)),
        count_left argsort ha _ _ op elx erx slx srx _ (EReal.coe_ne_top _) hn, hr.parity hn, hl.count]
    · rw [count_right argsort ha _ _ op ely ery sly sry _ (EReal.coe_ne_top _) (fun h => hm ((hl.mem v).1 h)),
        count_right argsort ha _ _ op elx erx slx srx _ (EReal.coe_ne_top _) hm, hl.parity hm, hr.count]
  have pass : ∀ {v w s}, (∀ s, Reported ly v s ↔ Reported lx w s) → (∀ s, Reported ry v s ↔ Reported rx w s) →
      (((v : EReal) ∈ (csgCombine argsort (-1) op ly.1 ly.2 ry.1 ry.2).1) ↔ ((w : EReal) ∈ (csgCombine argsort (-1) op lx.1 lx.2 rx.1 rx.2).1)) →
      (Reported (csgCombine argsort (-1) op ly.1 ly.2 ry.1 ry.2) v s ↔ Reported (csgCombine argsort (-1) op lx.1 lx.2 rx.1 rx.2) w s) := by
    intro v w s h1 h2 h3
    constructor
    · intro h
      obtain ⟨s', hs'⟩ := reported_of_mem (by omega) (h3.1 h.mem)
      have e : s' = s := by
        rcases split hl.leny hr.leny h with h | h <;> rcases split hl.lenx hr.lenx hs' with h' | h'
        · exact hl.single _ _ _ h' ((h1 s).1 h)
        · exact absurd h'.mem (ties w ((h1 s).1 h).mem)
        · exact absurd ((h2 s).1 h).mem (ties w h'.mem)
        · exact hr.single _ _ _ h' ((h2 s).1 h)
      exact e ▸ hs'
    · intro h
      obtain ⟨s', hs'⟩ := reported_of_mem (by omega) (h3.2 h.mem)
      have e : s' = s := by
        rcases split hl.lenx hr.lenx h with h | h <;> rcases split hl.leny hr.leny hs' with h' | h'
        · exact hl.single _ _ _ ((h1 s').1 h') h
        · exact absurd ((h2 s').1 h').mem (ties w h.mem)
        · exact absurd h.mem (ties w ((h1 s').1 h').mem)
        · exact hr.single _ _ _ ((h2 s').1 h') h
      exact e ▸ hs'
  refine ⟨by omega, by omega, ?_, ?_, ?_, count, ?_, single⟩
  · intro h
    exact (csgCombine_mem argsort ha.1 op bot_ne_top h hl.lenx hr.lenx).elim hl.botx hr.botx
  · intro h
    exact (csgCombine_mem argsort ha.1 op bot_ne_top h hl.leny hr.leny).elim hl.boty hr.boty
  · rw [(csgCombine_perm argsort ha.1 _ _ _ _ _ _).countP_eq, ← Nat.not_odd_iff_even,
      countP_arrayCsgUnsorted argsort ha.1 _ _ op elx erx slx srx _ (lowerPred_lt ⊤)]
    have h1 := Nat.not_odd_iff_even.2 hl.even
    have h2 := Nat.not_odd_iff_even.2 hr.even
    cases op
    · rintro (h | h)
      · exact h1 h
      · exact h2 h
    · exact fun h => h1 h.1
    · exact fun h => h1 h.1
  · intro v s
    refine pass (fun s => hl.label v s) (fun s => hr.label v s) ?_
    rw [← List.count_pos_iff, ← List.count_pos_iff, count]

/-- nothing but misses -/
theorem mirrored_top (T : ℝ) {x y : List EReal × List ℤ} (hx : ∀ v ∈ x.1, v = ⊤) (hy : ∀ v ∈ y.1, v = ⊤)
    (lx : x.2.length = x.1.length) (ly : y.2.length = y.1.length) : Mirrored T x y where
  lenx := lx
  leny := ly
  botx h := bot_ne_top (hx _ h)
  boty h := bot_ne_top (hy _ h)
  even := by
    rw [List.countP_eq_zero.2]
    · exact Even.zero
    · intro a h; rw [hx a h]; simp
  count v := by
    rw [List.count_eq_zero.2, List.count_eq_zero.2]
    · exact fun h => EReal.coe_ne_top _ (hx _ h)
    · exact fun h => EReal.coe_ne_top _ (hy _ h)
  label v s := ⟨fun h => absurd (hy _ h.mem) (EReal.coe_ne_top _), fun h => absurd (hx _ h.mem) (EReal.coe_ne_top _)⟩
  single v s s' h := absurd (hx _ h.mem) (EReal.coe_ne_top _)

theorem reported_pair {a b v : ℝ} {k s : ℤ} : Reported ([(a : EReal), (b : EReal)], [k, k]) v s ↔ (v = a ∨ v = b) ∧ s = k := by
  constructor
  · rintro ⟨i, h1, h2⟩
    rcases i with _ | _ | i
    · simp only [List.getElem?_cons_zero, Option.some.injEq, EReal.coe_eq_coe_iff] at h1 h2
      exact ⟨Or.inl h1.symm, h2.symm⟩
    · simp only [List.getElem?_cons_succ, List.getElem?_cons_zero, Option.some.injEq, EReal.coe_eq_coe_iff] at h1 h2
      exact ⟨Or.inr h1.symm, h2.symm⟩
    · simp at h1
  · rintro ⟨rfl | rfl, rfl⟩
    · exact ⟨0, rfl, rfl⟩
    · exact ⟨1, rfl, rfl⟩

/-- two hits of one surface -/
theorem mirrored_pair (T a b : ℝ) (k : ℤ) :
    Mirrored T ([(a : EReal), (b : EReal)], [k, k]) ([((T - b : ℝ) : EReal), ((T - a : ℝ) : EReal)], [k, k]) where
  lenx := rfl
  leny := rfl
  botx := by simp
  boty := by
    rw [List.mem_cons, List.mem_singleton]
    rintro (h | h)
    · exact EReal.coe_ne_bot _ h.symm
    · exact EReal.coe_ne_bot _ h.symm
  even := by
    have : ([(a : EReal), (b : EReal)].countP fun e => decide (e < ⊤)) = 2 := by simp [EReal.coe_lt_top]
    rw [this]
    exact even_two
  count v := by
    simp only [List.count_cons, List.count_nil, beq_iff_eq, EReal.coe_eq_coe_iff]
    have e1 : (T - a = v) ↔ (a = T - v) := ⟨fun h => by linarith, fun h => by linarith⟩
    have e2 : (T - b = v) ↔ (b = T - v) := ⟨fun h => by linarith, fun h => by linarith⟩
    simp only [e1, e2]
    omega
  label v s := by
    rw [reported_pair, reported_pair]
    have e1 : (v = T - a) ↔ (T - v = a) := ⟨fun h => by linarith, fun h => by linarith⟩
    have e2 : (v = T - b) ↔ (T - v = b) := ⟨fun h => by linarith, fun h => by linarith⟩
    rw [e1, e2, or_comm]
  single v s s' h h' := by
    rw [reported_pair] at h h'
    rw [h.2, h'.2]

/-- the line meets no two of the surfaces in the same point -/
def Spec.NoTies (depth : ℕ) (h : Heap) (a : ℕ) (ray : Ray) : Prop :=
  (surfaceIds depth h a).Pairwise fun x y => ∀ v : ℝ, (v : EReal) ∈ (intersectObj argsort 1 h x.2 ray).1 → (v : EReal) ∉ (intersectObj argsort 1 h y.2 ray).1

/-- an object seen from both sides of a line -/
theorem intersectObj_mirrored (ha : IsStableArgsort argsort) {fuel : ℕ} {h : Heap} (hre : Reaches argsort fuel Heap.empty h) {ray : Ray}
    (hray : GoodRay ray) (T : ℝ) {a : ℕ} {s : Solid} (hr : Represents h a s) : a < h.size →
    (s.All fun p w => Affine w ∧ Sees p (ray.map w⁻¹)) → ∀ depth, NoTies argsort depth h a ray →
    Mirrored T (intersectObj argsort depth h a ray) (intersectObj argsort depth h a (ray.back T)) := by
  have hi := reaches_inv argsort empty_inv hre
  have hray' := goodRay_back hray T
  induction hr with
  | @leaf a p hka =>
    rintro hlt ⟨haff, hsees⟩ depth hties
    rcases depth with _ | depth
    · exact mirrored_top T (by simp [intersectObj]) (by simp [intersectObj]) rfl rfl
    have e1 : (h.obj a).objT = (h.obj a).world⁻¹ := (hi.synced a hlt).2.1
    rw [intersectObj, intersectObj, hka]
    simp only [leafIntersect]
    rw [e1, Ray.back_map]
    rcases prim_back hsees (local_dir_ne haff hray.d3 hray.ne) T with ⟨h1, h2⟩ | ⟨x, y, -, h1, h2⟩
    · rw [h1, h2]
      exact mirrored_top T (by simp) (by simp) rfl rfl
    · rw [h1, h2]
      exact mirrored_pair T x y _
  | @node a l r op sl sr hka hl hr ihl ihr =>
    rintro hlt hg depth hties
    rcases depth with _ | depth
    · exact mirrored_top T (by simp [intersectObj]) (by simp [intersectObj]) rfl rfl
    have pl : IsParent h a l := ⟨op, l, r, hka, Or.inl rfl⟩
    have pr : IsParent h a r := ⟨op, l, r, hka, Or.inr rfl⟩
    have ll : l < h.size := lt_of_le_of_lt ((Under.step .refl pl).le hi.toStruct hlt) hlt
    have lr : r < h.size := lt_of_le_of_lt ((Under.step .refl pr).le hi.toStruct hlt) hlt
    have hties' : ((surfaceIds depth h l) ++ (surfaceIds depth h r)).Pairwise fun x y => ∀ v : ℝ,
        (v : EReal) ∈ (intersectObj argsort 1 h x.2 ray).1 → (v : EReal) ∉ (intersectObj argsort 1 h y.2 ray).1 := by
      unfold NoTies at hties
      rw [surfaceIds, hka] at hties
      exact hties
    rw [List.pairwise_append] at hties'
    have kl := ihl ll hg.1 depth hties'.1
    have kr := ihr lr hg.2 depth hties'.2.1
    obtain ⟨sl1, sl2, sl3⟩ := intersectObj_shape argsort ha.1 h ray depth l
    obtain ⟨sr1, sr2, sr3⟩ := intersectObj_shape argsort ha.1 h ray depth r
    obtain ⟨bl1, bl2, bl3⟩ := intersectObj_shape argsort ha.1 h (ray.back T) depth l
    obtain ⟨br1, br2, br3⟩ := intersectObj_shape argsort ha.1 h (ray.back T) depth r
    have leaf : ∀ b (v : ℝ), (v : EReal) ∈ (intersectObj argsort depth h b ray).1 →
        ∃ x ∈ surfaceIds depth h b, (v : EReal) ∈ (intersectObj argsort 1 h x.2 ray).1 := by
      intro b v hv
      obtain ⟨s, i, h1, h2⟩ := reported_of_mem (intersectObj_shape argsort ha.1 h ray depth b).2.2 hv
      obtain ⟨x, p, -, hm, hk, -, hm2⟩ := intersectObj_label argsort ha.1 h ray depth b i v s h1 (EReal.coe_ne_top _) h2
      refine ⟨_, hm, ?_⟩
      rw [intersectObj, hk]
      exact hm2
    rw [intersectObj, intersectObj, hka]
    simp only
    by_cases hp : boxPasses (h.obj a).aobb ray
    · rw [if_pos hp, if_pos ((boxPasses_back _ hray.clear T).2 hp)]
      refine mirrored_combine argsort ha op kl kr ?_ sl1 sr1 bl1 br1 sl2 sr2 bl2 br2
      intro v h1 h2
      obtain ⟨x, hx, hx'⟩ := leaf l v h1
      obtain ⟨y, hy, hy'⟩ := leaf r v h2
      exact hties'.2.2 x hx y hy v hx' hy'
    · rw [if_neg hp, if_neg (mt (boxPasses_back _ hray.clear T).1 hp)]
      exact mirrored_top T (fun v hv => (List.mem_replicate.1 hv).2) (fun v hv => (List.mem_replicate.1 hv).2) (by simp) (by simp)

end PyRayT
