import Verif.Spec.Arrays
import Mathlib.Tactic.FinCases
import Mathlib.Tactic.Ring
import Mathlib.Tactic.Linarith

/-!
# Refinement proof for the array classes
-/

namespace PyRayT

open Spec (Val)

/-- the cells of an array hold a value -/
def Holds (m : Mem) : ℕ × ArrShape → Val → Prop
  | (a, .coord), .coord v => m.load a = v
  | (a, .ray), .ray o d => m.load a = o ∧ m.load (a + 4) = d
  | (a, .bundle n), .bundle ps => ps.length = n ∧
      ∀ (k : Fin 2) (r : Fin 4) (j : ℕ) (p : Vec4 × Vec4), ps[j]? = some p →
        m.cell (a + ((4 * k + r) * n + j)) = Spec.comp p k r
  | _, _ => False

theorem load_congr {m m' : Mem} {a : ℕ} (h : ∀ c, a ≤ c → c < a + 4 → m'.cell c = m.cell c) : m'.load a = m.load a := by
  funext i
  exact h _ (by omega) (by omega)

theorem bundle_off {n j : ℕ} (k : Fin 2) (r : Fin 4) (hj : j < n) : (4 * (k : ℕ) + r) * n + j < 8 * n := by
  have h1 : 4 * (k : ℕ) + r ≤ 7 := by omega
  have := Nat.mul_le_mul_right n h1
  omega

theorem Holds.frame {m m' : Mem} {e : ℕ × ArrShape} {v : Val} (h : Holds m e v)
    (hc : ∀ c, e.1 ≤ c → c < e.1 + e.2.cells → m'.cell c = m.cell c) : Holds m' e v := by
  obtain ⟨a, sh⟩ := e
  cases sh <;> cases v <;> simp only [Holds, ArrShape.cells] at h hc ⊢
  · rw [load_congr hc]; exact h
  · exact ⟨by rw [load_congr (fun c h1 h2 => hc c h1 (by omega))]; exact h.1,
      by rw [load_congr (fun c h1 h2 => hc c (by omega) (by omega))]; exact h.2⟩
  · refine ⟨h.1, fun k r j p hp => ?_⟩
    rw [hc _ (by omega) ?_]
    · exact h.2 k r j p hp
    · have : j < _ := (List.getElem?_eq_some_iff.1 hp).1
      rw [h.1] at this
      have := bundle_off k r this
      omega

/-- the memory represents the values -/
structure ArrRel (s : ArrState) (vs : List Val) : Prop where
  next : 8 ≤ s.mem.next
  pt : s.mem.load 0 = point 0 0 0
  vc : s.mem.load 4 = vector 1 0 0
  len : s.objs.length = vs.length
  holds : ∀ (i : ℕ) e v, s.objs[i]? = some e → vs[i]? = some v → Holds s.mem e v
  low : ∀ (i : ℕ) e, s.objs[i]? = some e → 8 ≤ e.1 ∧ e.1 + e.2.cells ≤ s.mem.next
  disj : ∀ (i j : ℕ) e e', i < j → s.objs[i]? = some e → s.objs[j]? = some e' → e.1 + e.2.cells ≤ e'.1

theorem ArrRel.alloc {s : ArrState} {vs : List Val} (h : ArrRel s vs) (m' : Mem) (sh : ArrShape) (v : Val)
    (hn : m'.next = s.mem.next + sh.cells) (hc : ∀ c < s.mem.next, m'.cell c = s.mem.cell c)
    (hv : Holds m' (s.mem.next, sh) v) :
    ArrRel { mem := m', objs := s.objs ++ [(s.mem.next, sh)] } (vs ++ [v]) := by
  have split : ∀ (i : ℕ) e, (s.objs ++ [(s.mem.next, sh)])[i]? = some e →
      s.objs[i]? = some e ∨ (i = s.objs.length ∧ e = (s.mem.next, sh)) := fun i e hi => by
    rw [List.getElem?_append] at hi
    split at hi
    · exact Or.inl hi
    · right
      have hlt := (List.getElem?_eq_some_iff.1 hi).1
      simp only [List.length_cons, List.length_nil] at hlt
      have h0 : i - s.objs.length = 0 := by omega
      rw [h0] at hi
      simp at hi
      exact ⟨by omega, hi.symm⟩
  have h8 := h.next
  refine ⟨by simp only [hn]; omega, ?_, ?_, by simp [h.len], ?_, ?_, ?_⟩
  · rw [← h.pt]; exact load_congr (fun c _ h2 => hc c (by omega))
  · rw [← h.vc]; exact load_congr (fun c _ h2 => hc c (by omega))
  · intro i e v' hi hi'
    rcases split i e hi with h1 | ⟨rfl, rfl⟩
    · have hlt := (List.getElem?_eq_some_iff.1 h1).1
      rw [List.getElem?_append_left (by rw [← h.len]; exact hlt)] at hi'
      refine (h.holds i e v' h1 hi').frame (fun c _ h2 => hc c ?_)
      have := (h.low i e h1).2
      omega
    · rw [h.len] at hi'
      simp at hi'
      rw [← hi']; exact hv
  · intro i e hi
    simp only [hn]
    rcases split i e hi with h1 | ⟨rfl, rfl⟩
    · have := h.low i e h1; omega
    · exact ⟨h8, le_refl _⟩
  · intro i j e e' hij hi hj
    rcases split i e hi with h1 | ⟨rfl, rfl⟩
    · rcases split j e' hj with h2 | ⟨rfl, rfl⟩
      · exact h.disj i j e e' hij h1 h2
      · exact (h.low i e h1).2
    · rcases split j e' hj with h2 | ⟨rfl, rfl⟩
      · have := (List.getElem?_eq_some_iff.1 h2).1
        omega
      · omega

theorem ArrRel.write {s : ArrState} {vs : List Val} (h : ArrRel s vs) (m' : Mem) (i : ℕ) (e : ℕ × ArrShape) (v : Val)
    (hi : s.objs[i]? = some e) (hn : m'.next = s.mem.next)
    (hc : ∀ c, ¬ (e.1 ≤ c ∧ c < e.1 + e.2.cells) → m'.cell c = s.mem.cell c) (hv : Holds m' e v) :
    ArrRel { s with mem := m' } (vs.set i v) := by
  have hlow := h.low i e hi
  have hlt := (List.getElem?_eq_some_iff.1 hi).1
  have h8 := h.next
  refine ⟨by simp only [hn]; exact h.next, ?_, ?_, by simp [h.len], ?_, by simp only [hn]; exact h.low, h.disj⟩
  · rw [← h.pt]; exact load_congr (fun c _ h2 => hc c (by omega))
  · rw [← h.vc]; exact load_congr (fun c _ h2 => hc c (by omega))
  · intro j e' v' hj hv'
    by_cases hij : i = j
    · subst hij
      rw [List.getElem?_set_self (by rw [← h.len]; exact hlt)] at hv'
      rw [hi] at hj
      cases hj; cases hv'
      exact hv
    · rw [List.getElem?_set_ne hij] at hv'
      refine (h.holds j e' v' hj hv').frame (fun c h1 h2 => hc c ?_)
      rcases Nat.lt_or_gt_of_ne hij with hlt' | hgt
      · have := h.disj i j e e' hlt' hi hj; omega
      · have := h.disj j i e' e hgt hj hi; omega

/-- the value at an index -/
theorem ArrRel.val {s : ArrState} {vs : List Val} (h : ArrRel s vs) {i : ℕ} {e : ℕ × ArrShape} (hi : s.objs[i]? = some e) :
    ∃ v, vs[i]? = some v ∧ Holds s.mem e v := by
  have hlt := (List.getElem?_eq_some_iff.1 hi).1
  rw [h.len] at hlt
  exact ⟨vs[i], List.getElem?_eq_getElem hlt, h.holds i e _ hi (List.getElem?_eq_getElem hlt)⟩

theorem ArrRel.noVal {s : ArrState} {vs : List Val} (h : ArrRel s vs) {i : ℕ} (hi : s.objs[i]? = none) : vs[i]? = none := by
  rw [List.getElem?_eq_none_iff] at hi ⊢
  rw [← h.len]; exact hi

/-- what the relation says about an expression -/
def RefOk (s : ArrState) (vs : List Val) (r : Ref) : Prop :=
  (s.addr r = none ∧ Spec.read vs r = none) ∨
  ∃ a, s.addr r = some a ∧ Spec.read vs r = some (s.mem.load a) ∧ a + 4 ≤ s.mem.next ∧
    ∀ m' : Mem, m'.next = s.mem.next → (∀ c, ¬ (a ≤ c ∧ c < a + 4) → m'.cell c = s.mem.cell c) →
      ArrRel { s with mem := m' } (Spec.write vs r (m'.load a))

theorem ArrRel.ref {s : ArrState} {vs : List Val} (h : ArrRel s vs) (r : Ref) : RefOk s vs r := by
  cases r with
  | whole i =>
    cases hi : s.objs[i]? with
    | none => left; simp [ArrState.addr, Spec.read, hi, h.noVal hi]
    | some e =>
      obtain ⟨v, hv, hh⟩ := h.val hi
      have hlow := (h.low i e hi).2
      obtain ⟨a, sh⟩ := e
      cases sh <;> cases v <;> simp only [Holds, ArrShape.cells] at hh hlow
      · right
        refine ⟨a, by simp [ArrState.addr, hi], by simp [Spec.read, hv, hh], hlow, fun m' hn hc => ?_⟩
        exact h.write m' i _ _ hi hn hc (by simp [Holds])
      · left; simp [ArrState.addr, Spec.read, hi, hv]
      · left; simp [ArrState.addr, Spec.read, hi, hv]
  | origin i =>
    cases hi : s.objs[i]? with
    | none => left; simp [ArrState.addr, Spec.read, hi, h.noVal hi]
    | some e =>
      obtain ⟨v, hv, hh⟩ := h.val hi
      have hlow := (h.low i e hi).2
      obtain ⟨a, sh⟩ := e
      cases sh <;> cases v <;> simp only [Holds, ArrShape.cells] at hh hlow
      · left; simp [ArrState.addr, Spec.read, hi, hv]
      · right
        refine ⟨a, by simp [ArrState.addr, hi], by simp [Spec.read, hv, hh.1], by omega, fun m' hn hc => ?_⟩
        simp only [Spec.write, hv]
        refine h.write m' i _ _ hi hn (fun c hcc => hc c ?_) ⟨rfl, ?_⟩
        · simp only [ArrShape.cells] at hcc; omega
        · rw [← hh.2]; exact load_congr (fun c h1 h2 => hc c (by omega))
      · left; simp [ArrState.addr, Spec.read, hi, hv]
  | direction i =>
    cases hi : s.objs[i]? with
    | none => left; simp [ArrState.addr, Spec.read, hi, h.noVal hi]
    | some e =>
      obtain ⟨v, hv, hh⟩ := h.val hi
      have hlow := (h.low i e hi).2
      obtain ⟨a, sh⟩ := e
      cases sh <;> cases v <;> simp only [Holds, ArrShape.cells] at hh hlow
      · left; simp [ArrState.addr, Spec.read, hi, hv]
      · right
        refine ⟨a + 4, by simp [ArrState.addr, hi], by simp [Spec.read, hv, hh.2], by omega, fun m' hn hc => ?_⟩
        simp only [Spec.write, hv]
        refine h.write m' i _ _ hi hn (fun c hcc => hc c ?_) ⟨?_, rfl⟩
        · simp only [ArrShape.cells] at hcc; omega
        · rw [← hh.1]; exact load_congr (fun c h1 h2 => hc c (by omega))
      · left; simp [ArrState.addr, Spec.read, hi, hv]

theorem store_next (m : Mem) (a : ℕ) (v : Vec4) : (m.store a v).next = m.next := rfl

theorem store_load (m : Mem) (a : ℕ) (v : Vec4) : (m.store a v).load a = v := by
  funext i
  fin_cases i <;> simp [Mem.load, Mem.store, Mem.setCell, Function.update]

theorem store_other (m : Mem) (a : ℕ) (v : Vec4) (c : ℕ) (hc : ¬ (a ≤ c ∧ c < a + 4)) : (m.store a v).cell c = m.cell c := by
  have h0 : c ≠ a := by omega
  have h1 : c ≠ a + 1 := by omega
  have h2 : c ≠ a + 2 := by omega
  have h3 : c ≠ a + 3 := by omega
  simp [Mem.store, Mem.setCell, Function.update, h0, h1, h2, h3]

theorem normalize_load (m : Mem) (a : ℕ) : (m.normalize a).load a = Spec.unit3 (m.load a) := by
  funext i
  fin_cases i <;> simp [Mem.load, Mem.normalize, Mem.setCell, Function.update, Spec.unit3]

theorem normalize_other (m : Mem) (a : ℕ) (c : ℕ) (hc : ¬ (a ≤ c ∧ c < a + 4)) : (m.normalize a).cell c = m.cell c := by
  have h0 : c ≠ a := by omega
  have h1 : c ≠ a + 1 := by omega
  have h2 : c ≠ a + 2 := by omega
  simp [Mem.normalize, Mem.setCell, Function.update, h0, h1, h2]

theorem setCell_load (m : Mem) (a : ℕ) (k : Fin 4) (v : ℝ) :
    (m.setCell (a + k) v).load a = Function.update (m.load a) k v := by
  funext i
  simp only [Mem.load, Mem.setCell, Function.update]
  by_cases h : i = k
  · subst h; simp
  · have : (i : ℕ) ≠ k := by omega
    simp [h, this]

theorem setCell_other (m : Mem) (a c : ℕ) (v : ℝ) (h : c ≠ a) : (m.setCell a v).cell c = m.cell c := by
  simp [Mem.setCell, Function.update, h]

/-- a new coordinate -/
theorem ArrRel.newCoord {s : ArrState} {vs : List Val} (h : ArrRel s vs) (v : Vec4) :
    ArrRel { mem := s.mem.newCoord v, objs := s.objs ++ [(s.mem.next, .coord)] } (vs ++ [.coord v]) := by
  refine h.alloc _ .coord _ rfl (fun c hc => ?_) ?_
  · rw [Mem.newCoord, store_other _ _ _ _ (by omega), Mem.zeros]
    simp only
    rw [if_neg (by omega)]
  · exact store_load _ _ _

/-- a new ray -/
theorem ArrRel.newRay {s : ArrState} {vs : List Val} (h : ArrRel s vs) (o d : ℕ) (ho : o + 4 ≤ s.mem.next) (hd : d + 4 ≤ s.mem.next) :
    ArrRel { mem := s.mem.newRay o d, objs := s.objs ++ [(s.mem.next, .ray)] }
      (vs ++ [.ray (s.mem.load o) (s.mem.load d)]) := by
  have z : ∀ c < s.mem.next, (s.mem.zeros 8).cell c = s.mem.cell c := fun c hc => by
    rw [Mem.zeros]; simp only; rw [if_neg (by omega)]
  have zl : ∀ a, a + 4 ≤ s.mem.next → (s.mem.zeros 8).load a = s.mem.load a := fun a ha =>
    load_congr (fun c _ h2 => z c (by omega))
  refine h.alloc _ .ray _ rfl (fun c hc => ?_) ⟨?_, ?_⟩
  · rw [Mem.newRay]
    rw [store_other _ _ _ _ (by omega), store_other _ _ _ _ (by omega), z c hc]
  · rw [Mem.newRay]
    rw [load_congr (fun c h1 h2 => store_other _ _ _ c (by omega)), store_load, zl o ho]
  · rw [Mem.newRay]
    rw [store_load, load_congr (fun c h1 h2 => store_other _ _ _ c (by omega)), zl d hd]

/-- the addresses of a list of rays -/
theorem ArrRel.rays {s : ArrState} {vs : List Val} (h : ArrRel s vs) (is : List ℕ) :
    (is.mapM s.rayAddr = none ∧ Spec.rays vs is = none) ∨
    ∃ as ps, is.mapM s.rayAddr = some as ∧ Spec.rays vs is = some ps ∧ as.length = ps.length ∧
      ∀ (j a : ℕ) p, as[j]? = some a → ps[j]? = some p →
        a + 8 ≤ s.mem.next ∧ s.mem.load a = p.1 ∧ s.mem.load (a + 4) = p.2 := by
  induction is with
  | nil => right; exact ⟨[], [], rfl, rfl, rfl, by simp⟩
  | cons i is ih =>
    rw [List.mapM_cons]
    have hd : (s.rayAddr i = none ∧ ∀ o d, vs[i]? ≠ some (.ray o d)) ∨ ∃ a o d, s.rayAddr i = some a ∧
        vs[i]? = some (.ray o d) ∧ a + 8 ≤ s.mem.next ∧ s.mem.load a = o ∧ s.mem.load (a + 4) = d := by
      cases hi : s.objs[i]? with
      | none => left; simp [ArrState.rayAddr, ArrState.addr, hi, h.noVal hi]
      | some e =>
        obtain ⟨v, hv, hh⟩ := h.val hi
        have hlow := (h.low i e hi).2
        obtain ⟨a, sh⟩ := e
        cases sh <;> cases v <;> simp only [Holds, ArrShape.cells] at hh hlow
        · left; simp [ArrState.rayAddr, ArrState.addr, hi, hv]
        · right; exact ⟨a, _, _, by simp [ArrState.rayAddr, ArrState.addr, hi], hv, hlow, hh.1, hh.2⟩
        · left; simp [ArrState.rayAddr, ArrState.addr, hi, hv]
    rcases hd with ⟨h1, h2⟩ | ⟨a, o, d, h1, h2, h3, h4, h5⟩
    · left
      refine ⟨by simp [h1], ?_⟩
      unfold Spec.rays
      split
      · rename_i o d rs e1 e2
        exact absurd e1 (h2 o d)
      · rfl
    · rcases ih with ⟨e1, e2⟩ | ⟨as, ps, e1, e2, hl, hall⟩
      · left
        refine ⟨by simp [h1, e1], ?_⟩
        unfold Spec.rays
        rw [h2, e2]
      · right
        refine ⟨a :: as, (o, d) :: ps, by simp [h1, e1], ?_, by simp [hl], ?_⟩
        · conv_lhs => unfold Spec.rays
          rw [h2, e2]
        · intro j b p hb hp
          cases j with
          | zero => simp at hb hp; subst hb; subst hp; exact ⟨h3, h4, h5⟩
          | succ j => exact hall j b p (by simpa using hb) (by simpa using hp)

theorem ArrRel.bundle {s : ArrState} {vs : List Val} (h : ArrRel s vs) (as : List ℕ) (ps : List (Vec4 × Vec4))
    (hl : as.length = ps.length) (hne : as ≠ [])
    (hall : ∀ (j a : ℕ) p, as[j]? = some a → ps[j]? = some p →
        a + 8 ≤ s.mem.next ∧ s.mem.load a = p.1 ∧ s.mem.load (a + 4) = p.2) :
    ArrRel { mem := s.mem.bundle as, objs := s.objs ++ [(s.mem.next, .bundle as.length)] } (vs ++ [.bundle ps]) := by
  have hpos : 0 < as.length := List.length_pos_iff.2 hne
  refine h.alloc _ (.bundle as.length) _ rfl (fun c hc => ?_) ⟨hl.symm, fun k r j p hp => ?_⟩
  · rw [Mem.bundle]; simp only; rw [if_neg (by omega)]
  · have hj : j < as.length := by rw [hl]; exact (List.getElem?_eq_some_iff.1 hp).1
    have ha : as[j]? = some as[j] := List.getElem?_eq_getElem hj
    obtain ⟨h1, h2, h3⟩ := hall j _ p ha hp
    have hoff := bundle_off k r hj
    rw [Mem.bundle]
    simp only
    rw [if_pos ⟨by omega, by omega⟩]
    have e1 : (s.mem.next + ((4 * (k : ℕ) + r) * as.length + j) - s.mem.next) = j + as.length * (4 * (k : ℕ) + r) := by
      rw [Nat.add_sub_cancel_left]; ring
    rw [e1, Nat.add_mul_mod_self_left, Nat.mod_eq_of_lt hj, Nat.add_mul_div_left _ _ hpos, Nat.div_eq_of_lt hj]
    rw [List.getD_eq_getElem?_getD, ha, Option.getD_some]
    unfold Spec.comp
    fin_cases k
    · have := congrFun h2 r
      simp only [Mem.load] at this
      simpa using this
    · have := congrFun h3 r
      simp only [Mem.load] at this
      rw [Nat.add_assoc] at this
      simpa using this

theorem bundle_off_inj {n : ℕ} {k k' : Fin 2} {r r' : Fin 4} {j j' : ℕ} (hj : j < n) (hj' : j' < n)
    (h : (4 * (k : ℕ) + r) * n + j = (4 * (k' : ℕ) + r') * n + j') : k = k' ∧ r = r' ∧ j = j' := by
  have hpos : 0 < n := by omega
  have e1 : j = j' := by
    have := congrArg (· % n) h
    simp only [Nat.mul_add_mod_self_right, Nat.mod_eq_of_lt hj, Nat.mod_eq_of_lt hj'] at this
    exact this
  subst e1
  have e2 : (4 * (k : ℕ) + r) * n = (4 * (k' : ℕ) + r') * n := by omega
  have e3 := Nat.eq_of_mul_eq_mul_right hpos e2
  exact ⟨Fin.ext (by omega), Fin.ext (by omega), rfl⟩

/-- **Refinement.** An operation raises in the model iff it raises on the values, and keeps the relation. -/
theorem ArrRel.step {s : ArrState} {vs : List Val} (h : ArrRel s vs) (op : ArrOp) :
    (s.step op = none ∧ Spec.step vs op = none) ∨
    ∃ s' vs', s.step op = some s' ∧ Spec.step vs op = some vs' ∧ ArrRel s' vs' := by
  cases op with
  | newPoint x y z => right; exact ⟨_, _, rfl, rfl, h.newCoord _⟩
  | newVector x y z => right; exact ⟨_, _, rfl, rfl, h.newCoord _⟩
  | newRay o d =>
    have arg : ∀ (x : Option Ref) (a : ℕ) (v : Vec4), s.mem.load a = v → a + 4 ≤ s.mem.next →
        (s.argAddr a x = none ∧ Spec.arg vs v x = none) ∨ ∃ b, s.argAddr a x = some b ∧
          Spec.arg vs v x = some (s.mem.load b) ∧ b + 4 ≤ s.mem.next := by
      intro x a v ha hle
      cases x with
      | none => right; exact ⟨a, rfl, by rw [ha]; rfl, hle⟩
      | some r =>
        rcases h.ref r with ⟨h1, h2⟩ | ⟨b, h1, h2, h3, -⟩
        · left; exact ⟨h1, h2⟩
        · right; exact ⟨b, h1, h2, h3⟩
    have h8 := h.next
    rcases arg o 0 _ h.pt (by omega) with ⟨h1, h2⟩ | ⟨a, h1, h2, h3⟩
    · left; simp [ArrState.step, Spec.step, h1, h2]
    · rcases arg d 4 _ h.vc (by omega) with ⟨g1, g2⟩ | ⟨b, g1, g2, g3⟩
      · left; simp [ArrState.step, Spec.step, h1, h2, g1, g2]
      · right
        exact ⟨_, _, by simp [ArrState.step, h1, g1], by simp [Spec.step, h2, g2], h.newRay a b h3 g3⟩
  | setComp r k v =>
    rcases h.ref r with ⟨h1, h2⟩ | ⟨a, h1, h2, h3, h4⟩
    · left; simp [ArrState.step, Spec.step, h1, h2]
    · right
      refine ⟨_, _, by simp [ArrState.step, h1]; rfl, by simp [Spec.step, h2]; rfl, ?_⟩
      rw [← setCell_load]
      exact h4 _ rfl (fun c hc => setCell_other _ _ _ _ (by omega))
  | normalize r =>
    rcases h.ref r with ⟨h1, h2⟩ | ⟨a, h1, h2, h3, h4⟩
    · left; simp [ArrState.step, Spec.step, h1, h2]
    · right
      refine ⟨_, _, by simp [ArrState.step, h1]; rfl, by simp [Spec.step, h2]; rfl, ?_⟩
      rw [← normalize_load]
      exact h4 _ rfl (fun c hc => normalize_other _ _ _ hc)
  | setOrigin i r =>
    rcases h.ref (.origin i) with ⟨h1, h2⟩ | ⟨a, h1, h2, h3, h4⟩
    · left; simp [ArrState.step, Spec.step, h1, h2]
    · rcases h.ref r with ⟨g1, g2⟩ | ⟨b, g1, g2, g3, -⟩
      · left; simp [ArrState.step, Spec.step, h1, h2, g1, g2]
      · right
        refine ⟨_, _, by simp [ArrState.step, h1, g1]; rfl, by simp [Spec.step, h2, g2]; rfl, ?_⟩
        have := h4 (s.mem.store a (s.mem.load b)) rfl (fun c hc => store_other _ _ _ _ hc)
        rwa [store_load] at this
  | setDirection i r =>
    rcases h.ref (.direction i) with ⟨h1, h2⟩ | ⟨a, h1, h2, h3, h4⟩
    · left; simp [ArrState.step, Spec.step, h1, h2]
    · rcases h.ref r with ⟨g1, g2⟩ | ⟨b, g1, g2, g3, -⟩
      · left; simp [ArrState.step, Spec.step, h1, h2, g1, g2]
      · right
        refine ⟨_, _, by simp [ArrState.step, h1, g1]; rfl, by simp [Spec.step, h2, g2]; rfl, ?_⟩
        have := h4 (s.mem.store a (s.mem.load b)) rfl (fun c hc => store_other _ _ _ _ hc)
        rwa [store_load] at this
  | bundle is =>
    rcases h.rays is with ⟨h1, h2⟩ | ⟨as, ps, h1, h2, hl, hall⟩
    · left; simp [ArrState.step, Spec.step, h1, h2]
    · by_cases hne : as = []
      · left
        have : ps = [] := by rw [hne] at hl; exact List.length_eq_zero_iff.1 (by simpa using hl.symm)
        subst this
        simp [ArrState.step, Spec.step, h1, h2, hne]
      · right
        obtain ⟨p, ps, rfl⟩ : ∃ p q, ps = p :: q := by
          cases ps with
          | nil => exact absurd (List.length_eq_zero_iff.1 (by simpa using hl)) hne
          | cons p q => exact ⟨p, q, rfl⟩
        exact ⟨_, _, by simp [ArrState.step, h1, hne], by simp [Spec.step, h2], h.bundle as _ hl hne hall⟩
  | setBundle i k r j v =>
    cases hi : s.objs[i]? with
    | none => left; simp [ArrState.step, Spec.step, hi, h.noVal hi]
    | some e =>
      obtain ⟨val, hv, hh⟩ := h.val hi
      obtain ⟨a, sh⟩ := e
      cases sh <;> cases val <;> simp only [Holds] at hh
      · left; simp [ArrState.step, Spec.step, hi, hv]
      · left; simp [ArrState.step, Spec.step, hi, hv]
      · rename_i n ps
        by_cases hj : j < n
        · right
          have hps : ps[j]? = some (ps[j]'(by rw [hh.1]; exact hj)) := List.getElem?_eq_getElem _
          set p := ps[j]'(by rw [hh.1]; exact hj)
          refine ⟨_, _, by simp [ArrState.step, hi, hj]; rfl, by simp [Spec.step, hv, hps]; rfl, ?_⟩
          have hoff := bundle_off k r hj
          refine h.write _ i _ _ hi rfl (fun c hc => setCell_other _ _ _ _ ?_) ⟨by simp [hh.1], ?_⟩
          · simp only [ArrShape.cells] at hc; omega
          · intro k' r' j' p' hp'
            by_cases hjj : j = j'
            · subst hjj
              rw [List.getElem?_set_self (by rw [hh.1]; exact hj)] at hp'
              cases hp'
              by_cases hkr : k' = k ∧ r' = r
              · obtain ⟨rfl, rfl⟩ := hkr
                simp only [Mem.setCell, Function.update_self, Spec.comp, Spec.setCompOf]
                split <;> simp
              · rw [setCell_other, hh.2 k' r' j p hps]
                · simp only [Spec.comp, Spec.setCompOf]
                  by_cases hk : k = 0
                  · by_cases hk' : k' = 0
                    · have : r' ≠ r := fun e => hkr ⟨hk'.trans hk.symm, e⟩
                      simp [hk, hk', Function.update, this]
                    · simp [hk, hk']
                  · by_cases hk' : k' = 0
                    · simp [hk, hk']
                    · have : r' ≠ r := fun e => hkr ⟨by omega, e⟩
                      simp [hk, hk', Function.update, this]
                · intro he
                  have := bundle_off_inj hj hj (Nat.add_left_cancel he)
                  exact hkr ⟨this.1, this.2.1⟩
            · rw [List.getElem?_set_ne hjj] at hp'
              have hj' : j' < n := by rw [← hh.1]; exact (List.getElem?_eq_some_iff.1 hp').1
              rw [setCell_other, hh.2 k' r' j' p' hp']
              intro he
              exact hjj (bundle_off_inj hj' hj (Nat.add_left_cancel he)).2.2.symm
        · left
          have : ps[j]? = none := by rw [List.getElem?_eq_none_iff, hh.1]; omega
          simp [ArrState.step, Spec.step, hi, hv, hj, this]

theorem ArrRel.init : ArrRel ArrState.init [] := by
  refine ⟨by simp [ArrState.init, Mem.newCoord, Mem.zeros, store_next], ?_, ?_, rfl, by simp [ArrState.init],
    by simp [ArrState.init], by simp [ArrState.init]⟩
  · funext i
    fin_cases i <;> simp [ArrState.init, Mem.newCoord, Mem.zeros, Mem.store, Mem.setCell, Mem.load, Function.update, point]
  · exact store_load _ _ _

theorem ArrRel.run {s : ArrState} {vs : List Val} (h : ArrRel s vs) (ops : List ArrOp) : ArrRel (s.run ops) (Spec.run vs ops) := by
  induction ops generalizing s vs with
  | nil => exact h
  | cons o ops ih =>
    rcases h.step o with ⟨h1, h2⟩ | ⟨s', vs', h1, h2, h3⟩
    · have := ih h
      simpa [ArrState.run, Spec.run, h1, h2] using this
    · have := ih h3
      simpa [ArrState.run, Spec.run, h1, h2] using this

theorem ArrRel.readBundle {s : ArrState} {vs : List Val} (h : ArrRel s vs) (i : ℕ) (k : Fin 2) (r : Fin 4) (j : ℕ) :
    s.readBundle i k r j = Spec.readBundle vs i k r j := by
  cases hi : s.objs[i]? with
  | none => simp [ArrState.readBundle, Spec.readBundle, hi, h.noVal hi]
  | some e =>
    obtain ⟨val, hv, hh⟩ := h.val hi
    obtain ⟨a, sh⟩ := e
    cases sh <;> cases val <;> simp only [Holds] at hh
    · simp [ArrState.readBundle, Spec.readBundle, hi, hv]
    · simp [ArrState.readBundle, Spec.readBundle, hi, hv]
    · rename_i n ps
      by_cases hj : j < n
      · have hps : ps[j]? = some (ps[j]'(by rw [hh.1]; exact hj)) := List.getElem?_eq_getElem _
        simp only [ArrState.readBundle, Spec.readBundle, hi, hv, hj, if_true, hps, Option.map_some]
        rw [hh.2 k r j _ hps]
      · have : ps[j]? = none := by rw [List.getElem?_eq_none_iff, hh.1]; omega
        simp [ArrState.readBundle, Spec.readBundle, hi, hv, hj, this]

theorem ArrRel.read {s : ArrState} {vs : List Val} (h : ArrRel s vs) (r : Ref) : s.read r = Spec.read vs r := by
  rcases h.ref r with ⟨h1, h2⟩ | ⟨a, h1, h2, -⟩
  · simp [ArrState.read, h1, h2]
  · simp [ArrState.read, h1, h2]

end PyRayT
