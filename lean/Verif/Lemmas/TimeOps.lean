import Verif.Lemmas.Time
import Verif.Lemmas.SqrtSmall
import Verif.Lemmas.FloatSqrtRun
import Verif.Model.Atan
/-! Loop-free operations, and the passes of the NIIRF square root. -/

namespace MixedNum
variable {α : Type}

/-- The primitive operations used by the square root have no loops. -/
structure FreeOps (α : Type) [NumOps α] [Lit α] [MixedPowi α] [MixedAbs α] : Prop where
  add : ∀ a b : α, LoopFree (NumOps.add a b)
  sub : ∀ a b : α, LoopFree (NumOps.sub a b)
  mul : ∀ a b : α, LoopFree (NumOps.mul a b)
  div : ∀ a b : α, LoopFree (NumOps.div a b)
  int : ∀ n, LoopFree (Lit.ofI32 n : Prog α)
  flt : ∀ q, LoopFree (Lit.ofF64 q : Prog α)
  powi : ∀ (a : α) e, LoopFree (MixedPowi.powi a e)
  abs : ∀ a : α, LoopFree (MixedAbs.abs a)

/-- The same for π and negation. -/
structure FreeSigned (α : Type) [MixedPi α] [MixedNumSigned α] : Prop where
  pi : LoopFree (MixedPi.pi : Prog α)
  neg : ∀ a : α, LoopFree (MixedNumSigned.neg a)

/-- Takes a program without loops apart. -/
macro "loop_free" o:term ", " g:term : tactic => `(tactic| repeat' (first
  | exact LoopFree.of_pure _ | exact ($o).add _ _ | exact ($o).sub _ _ | exact ($o).mul _ _ | exact ($o).div _ _
  | exact ($o).int _ | exact ($o).flt _ | exact ($o).powi _ _ | exact ($o).abs _ | exact ($g).pi | exact ($g).neg _
  | refine LoopFree.bind ?_ fun _ => ?_ | refine LoopFree.ite ?_ ?_))

section
variable [MixedCmp α] [NumOps α] [Lit α] [MixedPi α] [MixedNumSigned α] [MixedPowi α] [MixedAbs α] [MixedZero α] [MixedReal α]

omit [MixedZero α] [MixedReal α] in
theorem FreeOps.sin (o : FreeOps α) (g : FreeSigned α) (x : α) : LoopFree (MixedNum.sin x) := by
  unfold MixedNum.sin sinFold
  loop_free o, g

theorem FreeOps.atan2 (o : FreeOps α) (g : FreeSigned α) (y x : α) : LoopFree (atan2Poly y x) := by
  unfold atan2Poly atanPoly1 atanPoly2
  loop_free o, g
end

section
variable [MixedCmp α] [NumOps α] [Lit α] [MixedPowi α] [MixedAbs α] [MixedZero α]

omit [MixedZero α] in
theorem FreeOps.beta (o : FreeOps α) (x : α) : LoopFree (MixedNum.beta x) := by
  unfold MixedNum.beta
  loop_free o, o

omit [MixedZero α] in
theorem FreeOps.iter (o : FreeOps α) (x : α) (k : ℕ) : ∀ y, LoopFree (niirfIter x k y) := by
  induction k with
  | zero => intro y; exact .of_pure _
  | succ k ih =>
    intro y
    rw [niirfIter]
    refine (o.beta x).bind fun _ => ?_
    refine LoopFree.bind (by loop_free o, o) fun _ => ?_
    refine LoopFree.bind (by loop_free o, o) fun _ => ?_
    refine LoopFree.bind (by loop_free o, o) fun _ => ?_
    refine LoopFree.bind (by loop_free o, o) fun _ => ih _

theorem Counter.free (c : Counter) (n : ℤ) : LoopFree (c.fit n) := by
  rcases c with _ | m
  · exact .of_pure _
  · rcases m with _ | _
    · exact LoopFree.ite (.of_pure _) (.of_fail _)
    · exact .of_pure _

omit [MixedCmp α] [MixedZero α] in
theorem FreeOps.denorm (o : FreeOps α) {cn : Counter} {B : ℤ} (hcn : cn.Upto B) (y : α) {k : ℤ} (hk : |k| ≤ B) {K : ℕ}
    (hK : k.natAbs ≤ K) : PassesAtMost (niirfDenormalize cn y k) K := by
  rw [denormalize_eq hcn y hk]
  unfold denormalizeExact
  refine PassesAtMost.bind (fun n hn => ?_) fun _ _ _ => (LoopFree.of_pure _).atMost K
  refine (whileLoop_time (fun _ => True) (fun s : α × ℤ => s.2.natAbs) (fun _ => .of_pure _) (fun s => ?_) ?_ trivial).1 n
    (by simp only []; omega)
  · loop_free o, o
  · rintro ⟨a, j⟩ ⟨a', j'⟩ - h1 h2
    refine ⟨trivial, ?_⟩
    simp only at h2 ⊢
    have h2 := congrFun h2 0
    split_ifs at h2 with h3 h4
    · obtain ⟨_, -, h2⟩ := Prog.bind_ok_inv h2
      obtain ⟨_, -, h2⟩ := Prog.bind_ok_inv h2
      cases h2; omega
    · obtain ⟨_, -, h2⟩ := Prog.bind_ok_inv h2
      obtain ⟨_, -, h2⟩ := Prog.bind_ok_inv h2
      cases h2; omega
    · have := Prog.pure_inj h1
      simp only [bne_iff_ne, ne_eq, Int.natAbs_eq_zero] at this; omega

/-- The whole routine, from what the normalisation does. -/
theorem FreeOps.niirf (o : FreeOps α) {cn : Counter} {B : ℤ} (hcn : cn.Upto B) {K : ℕ} {x : α} (iters : ℕ)
    (h : ∀ x' n, MixedCmp.beq x MixedZero.zero = false → MixedAbs.abs x n = .ok x' → PassesAtMost (niirfNormalize cn x') K ∧
      ∀ n s, niirfNormalize cn x' n = .ok s → |s.2| ≤ B ∧ s.2.natAbs ≤ K) : PassesAtMost (MixedNum.niirf cn x iters) K := by
  unfold MixedNum.niirf
  split_ifs with h0
  · exact (LoopFree.of_pure _).atMost K
  refine PassesAtMost.bind ((o.abs x).atMost K) fun x' n e => ?_
  obtain ⟨h1, h2⟩ := h x' n (by simpa using h0) e
  refine PassesAtMost.bind h1 fun s n e => ?_
  obtain ⟨h3, h4⟩ := h2 n s e
  refine PassesAtMost.bind (LoopFree.atMost (by loop_free o, o) K) fun _ _ _ => ?_
  refine PassesAtMost.bind (LoopFree.atMost (by loop_free o, o) K) fun _ _ _ => ?_
  refine PassesAtMost.bind (LoopFree.atMost (by loop_free o, o) K) fun _ _ _ => ?_
  refine PassesAtMost.bind (LoopFree.atMost (by loop_free o, o) K) fun _ _ _ => ?_
  refine PassesAtMost.bind (LoopFree.atMost (by loop_free o, o) K) fun _ _ _ => ?_
  refine PassesAtMost.bind (LoopFree.atMost (by loop_free o, o) K) fun _ _ _ => ?_
  refine PassesAtMost.bind ((o.iter _ _ _).atMost K) fun _ _ _ => ?_
  exact o.denorm hcn _ h3 h4
end

/-! ### Fixed point -/

namespace Fixed
variable {m : Mode} {s : Bool} {W F : ℕ}

theorem free_fit (n : ℤ) : LoopFree (fit n : Prog (Fixed m s W F)) := by
  by_cases h : Fits s W n
  · rw [fit_of_fits h]; exact .of_pure _
  · cases m
    · rw [fit_checked h]; exact .of_fail _
    · rw [fit_wrapping]; exact .of_pure _

theorem free_powi (x : Fixed m s W F) (e : ℕ) : LoopFree (MixedNum.powi x e) := by
  have key : ∀ k t, LoopFree (powiLoop x k t) := by
    intro k
    induction k with
    | zero => intro t; exact .of_pure _
    | succ k ih => intro t; rw [powiLoop]; exact (free_fit _).bind fun _ => ih _
  unfold MixedNum.powi
  exact LoopFree.ite (free_fit _) (key _ _)

theorem freeOps : FreeOps (Fixed m s W F) where
  add _ _ := free_fit _
  sub _ _ := free_fit _
  mul _ _ := free_fit _
  div _ _ := LoopFree.ite (.of_fail _) (free_fit _)
  int _ := free_fit _
  flt _ := free_fit _
  powi _ _ := free_powi _ _
  abs _ := LoopFree.ite (free_fit _) (.of_pure _)

theorem freeSigned : FreeSigned (Fixed m true W F) where
  pi := free_fit _
  neg _ := free_fit _

theorem four_lit_le (F : ℕ) : 4 * lit F (1 / 4) ≤ 2 ^ F := by
  rcases Nat.lt_or_ge F 2 with h | h
  · obtain rfl | rfl : F = 0 ∨ F = 1 := by omega
    · decide +kernel
    · decide +kernel
  · exact (lit_quarter h).le

/-- A stored integer that was computed without wrapping. -/
theorem val_of_fit {n : ℤ} {c : Fixed m s W F} {k : ℕ} (hm : m = .checked ∨ Fits s W n) (h : fit n k = .ok c) : c.val = n := by
  by_cases hf : Fits s W n
  · rw [fit_of_fits hf] at h; cases h; rfl
  · obtain rfl := hm.resolve_right hf
    rw [fit_checked hf] at h; simp at h

theorem normalize_time {cn : Counter} (hcn : cn.Upto W) (hm : m = .checked ∨ Fits s W (4 * 2 ^ F)) {x : Fixed m s W F}
    (hx : 0 < x.val) : PassesAtMost (niirfNormalize cn x) ((W + 1) / 2) ∧
      ∀ n r, niirfNormalize cn x n = .ok r → |r.2| ≤ (W:ℤ) ∧ r.2.natAbs ≤ (W + 1) / 2 := by
  have hP : (0:ℤ) < 2 ^ F := by positivity
  have hm1 : m = .checked ∨ Fits s W (2 ^ F) := hm.imp_right fun h => (fits_zero s W).between h hP.le (by linarith)
  have o := freeOps (m := m) (s := s) (W := W) (F := F)
  have hlit := four_lit_le F
  have l0 : 0 ≤ lit F (1 / 4) := (lit_bounds F (by norm_num) (by norm_num)).1
  unfold niirfNormalize
  obtain ⟨t1, r1⟩ := whileLoop_time (σ := Fixed m s W F × ℤ)
    (c := fun s => do pure (MixedCmp.lt s.1 (← Lit.ofF64 (1/4))))
    (b := fun s => do
      let k ← cn.fit (s.2 - 1)
      pure (← NumOps.mul s.1 (← Lit.ofI32 4), k))
    (fun s => ∃ j : ℕ, s.2 = -j ∧ 4 ^ j ≤ s.1.val) (fun s => (((W / 2 : ℕ):ℤ) + s.2).toNat) (fun s => by loop_free o, o)
    (fun s => (Counter.free _ _).bind fun _ => by loop_free o, o) (by
      rintro ⟨a, k⟩ ⟨a', k'⟩ ⟨j, rfl, hj⟩ h1 h2
      simp only at hj h1 h2 ⊢
      have hjW := four_pow_lt hj (lt_two_pow a)
      have hp : (0:ℤ) < 4 ^ j := by positivity
      have h1 := congrFun h1 0
      obtain ⟨q, hq, h1⟩ := Prog.bind_ok_inv h1
      have vq := val_of_fit (hm1.imp_right fun h => (fits_zero s W).between h l0 (by omega)) hq
      change q.val = lit F (1 / 4) at vq
      have hlt : a.val < q.val := by
        have : Out.ok (decide (a.val < q.val)) = .ok true := h1
        simpa using this
      rw [hcn _ (abs_le.mpr (by omega)), pure_bind] at h2
      have h2 := congrFun h2 0
      obtain ⟨f, hf, h2⟩ := Prog.bind_ok_inv h2
      obtain ⟨c, hc, h2⟩ := Prog.bind_ok_inv h2
      have vf := val_of_fit hm hf
      rw [mul_lit a f vf] at hc
      have vc := val_of_fit (hm1.imp_right fun h => (fits_zero s W).between h (by omega) (by omega)) hc
      cases h2
      have hj' : (4:ℤ) ^ (j + 1) ≤ a'.val := by rw [vc, pow_succ]; omega
      have := four_pow_lt hj' (lt_two_pow a')
      exact ⟨⟨j + 1, by push_cast; ring, hj'⟩, by omega⟩) (s := (x, 0)) ⟨0, by simp, by simp; omega⟩
  have key : ∀ (n : ℕ) (s1 : Fixed m s W F × ℤ), whileLoop (fun (s : Fixed m s W F × ℤ) => do pure (MixedCmp.lt s.1 (← Lit.ofF64 (1/4))))
      (fun s => do
        let k ← cn.fit (s.2 - 1)
        pure (← NumOps.mul s.1 (← Lit.ofI32 4), k)) (x, 0) n = .ok s1 →
      PassesAtMost (whileLoop (fun (s : Fixed m s W F × ℤ) => do pure (MixedCmp.le (← Lit.ofF64 1) s.1))
        (fun s => do
          let k ← cn.fit (s.2 + 1)
          pure (← NumOps.div s.1 (← Lit.ofI32 4), k)) s1) ((W + 1) / 2) ∧
      ∀ n r, whileLoop (fun (s : Fixed m s W F × ℤ) => do pure (MixedCmp.le (← Lit.ofF64 1) s.1))
        (fun s => do
          let k ← cn.fit (s.2 + 1)
          pure (← NumOps.div s.1 (← Lit.ofI32 4), k)) s1 n = .ok r → |r.2| ≤ (W:ℤ) ∧ r.2.natAbs ≤ (W + 1) / 2 := by
    intro n s1 e
    obtain ⟨⟨j, hj1, hj2⟩, -⟩ := r1 n s1 e
    have hjW := four_pow_lt hj2 (lt_two_pow s1.1)
    obtain ⟨t2, r2⟩ := whileLoop_time (σ := Fixed m s W F × ℤ)
      (c := fun s => do pure (MixedCmp.le (← Lit.ofF64 1) s.1))
      (b := fun s => do
        let k ← cn.fit (s.2 + 1)
        pure (← NumOps.div s.1 (← Lit.ofI32 4), k))
      (fun t => ∃ i : ℕ, t.2 = -j + i ∧ 0 ≤ t.1.val ∧ 2 * i ≤ W + 1 ∧ t.1.val * 4 ^ i ≤ s1.1.val)
      (fun t => ((((W + 1) / 2 : ℕ):ℤ) - (t.2 + j)).toNat) (fun s => by loop_free o, o)
      (fun s => (Counter.free _ _).bind fun _ => by loop_free o, o) (by
        rintro ⟨a, k⟩ ⟨a', k'⟩ ⟨i, rfl, ha, hi, hle⟩ h1 h2
        simp only at ha hi hle h1 h2 ⊢
        have h1 := congrFun h1 0
        obtain ⟨q, hq, h1⟩ := Prog.bind_ok_inv h1
        have vq := val_of_fit (hm1.imp_right fun h => by
          show Fits s W (lit F 1); rwa [lit_one]) hq
        change q.val = lit F 1 at vq
        rw [lit_one] at vq
        have hlt : q.val ≤ a.val := by
          have : Out.ok (decide (q.val ≤ a.val)) = .ok true := h1
          simpa using this
        have hp : (0:ℤ) < 4 ^ i := by positivity
        have hiW := four_pow_lt (show (4:ℤ) ^ i ≤ s1.1.val by nlinarith) (lt_two_pow s1.1)
        rw [hcn _ (abs_le.mpr (by omega)), pure_bind] at h2
        have h2 := congrFun h2 0
        obtain ⟨f, hf, h2⟩ := Prog.bind_ok_inv h2
        obtain ⟨c, hc, h2⟩ := Prog.bind_ok_inv h2
        have vf := val_of_fit hm hf
        rw [div_lit a f (by norm_num) vf, Int.tdiv_eq_ediv_of_nonneg ha] at hc
        have vc := val_of_fit (.inr ((fits_zero s W).between a.fits (by omega) (by omega))) hc
        cases h2
        refine ⟨⟨i + 1, by push_cast; ring, by omega, by omega, ?_⟩, by omega⟩
        rw [vc, pow_succ]
        have : a.val / 4 * 4 ≤ a.val := Int.ediv_mul_le _ (by norm_num)
        nlinarith) (s := s1) ⟨0, by simpa using hj1, by
          have : (0:ℤ) < 4 ^ j := by positivity
          omega, by omega, by simp⟩
    refine ⟨fun n hn => t2 n ?_, fun n r hr => ?_⟩
    · simp only [hj1]; omega
    · obtain ⟨⟨i, hi, -, hi2, -⟩, -⟩ := r2 n r hr
      rw [hi, abs_le]; omega
  refine ⟨PassesAtMost.bind (fun n hn => t1 n ?_) fun s1 n e => (key n s1 e).1, fun n r hr => ?_⟩
  · simp only []; omega
  · obtain ⟨s1, e, hr⟩ := Prog.bind_ok_inv hr
    exact (key n s1 e).2 n r hr

end Fixed
end MixedNum
