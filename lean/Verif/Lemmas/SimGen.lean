import Verif.Lemmas.Sim
/-! The generic functions of the crate preserve simulation. -/

namespace MixedNum
namespace Sim
variable {α β γ δ : Type}

theorem sign {R : α → β → Prop} [MixedCmp α] [MixedCmp β] [Cmp R] [Lit α] [Lit β] [Lits R]
    {a : α} {a' : β} (h : R a a') :
    Sim R (MixedNum.sign a) (MixedNum.sign a') := by
  unfold MixedNum.sign; simulate

theorem sinFold {R : α → β → Prop} [MixedCmp α] [MixedCmp β] [Cmp R] [NumOps α] [NumOps β] [Num R] [Lit α] [Lit β] [Lits R]
    [MixedPi α] [MixedPi β] [Pi R] [MixedNumSigned α] [MixedNumSigned β] [Neg R]
    {a : α} {a' : β} (h : R a a') :
    Sim R (MixedNum.sinFold a) (MixedNum.sinFold a') := by
  unfold MixedNum.sinFold; simulate

theorem sin {R : α → β → Prop} [MixedCmp α] [MixedCmp β] [Cmp R] [NumOps α] [NumOps β] [Num R] [Lit α] [Lit β] [Lits R]
    [MixedPi α] [MixedPi β] [Pi R] [MixedNumSigned α] [MixedNumSigned β] [Neg R] [MixedPowi α] [MixedPowi β] [Powi R]
    {a : α} {a' : β} (h : R a a') :
    Sim R (MixedNum.sin a) (MixedNum.sin a') := by
  unfold MixedNum.sin
  refine Sim.bind (sinFold h) fun _ _ _ => ?_
  simulate

theorem wrapPhase {R : α → β → Prop} [MixedCmp α] [MixedCmp β] [Cmp R] [NumOps α] [NumOps β] [Num R] [Lit α] [Lit β] [Lits R]
    [MixedPi α] [MixedPi β] [Pi R] [MixedNumSigned α] [MixedNumSigned β] [Neg R]
    {a : α} {a' : β} (h : R a a') :
    Sim R (MixedNum.wrapPhase a) (MixedNum.wrapPhase a') := by
  unfold MixedNum.wrapPhase
  refine Sim.bind Pi.pi fun p p' hp => ?_
  refine Sim.bind (Lits.ofI32 2) fun t t' ht => ?_
  refine Sim.bind (Num.mul ht hp) fun u u' hu => ?_
  refine Sim.bind (R := R) ?_ fun y y' hy => ?_
  · refine Sim.loop (R := R) (fun x x' hx => ?_) (fun x x' hx => Num.add hx hu) h
    simulate
  · refine Sim.loop (R := R) (fun x x' hx => Sim.pure (Cmp.le hp hx)) (fun x x' hx => Num.sub hx hu) ?_
    exact hy

theorem cos {R : α → β → Prop} [MixedCmp α] [MixedCmp β] [Cmp R] [NumOps α] [NumOps β] [Num R] [Lit α] [Lit β] [Lits R]
    [MixedPi α] [MixedPi β] [Pi R] [MixedNumSigned α] [MixedNumSigned β] [Neg R] [MixedPowi α] [MixedPowi β] [Powi R]
    {a : α} {a' : β} (h : R a a') :
    Sim R (MixedNum.cos a) (MixedNum.cos a') := by
  unfold MixedNum.cos
  refine Sim.bind Pi.pi fun p p' hp => ?_
  refine Sim.bind (Lits.ofI32 2) fun t t' ht => ?_
  refine Sim.bind (Num.div hp ht) fun u u' hu => ?_
  refine Sim.bind (Num.add h hu) fun v v' hv => ?_
  exact Sim.bind (wrapPhase hv) fun w w' hw => sin hw

theorem powiLoop {R : α → β → Prop} [NumOps α] [NumOps β] [Num R]
    {a b : α} {a' b' : β} (k : ℕ) (h : R a a') (h' : R b b') :
    Sim R (MixedNum.powiLoop a k b) (MixedNum.powiLoop a' k b') := by
  induction k generalizing b b' with
  | zero => exact Sim.pure h'
  | succ k ih => exact Sim.bind (Num.mul h' h) fun _ _ h => ih h

theorem powi {R : α → β → Prop} [NumOps α] [NumOps β] [Num R] [Lit α] [Lit β] [Lits R]
    {a : α} {a' : β} (k : ℕ) (h : R a a') :
    Sim R (MixedNum.powi a k) (MixedNum.powi a' k) := by
  unfold MixedNum.powi; exact Sim.ite_prop Iff.rfl (Lits.ofI32 1) (powiLoop _ h h)

theorem mixedPowiVia {R : α → β → Prop} [NumOps α] [NumOps β] [Num R] [Lit α] [Lit β] [Lits R]
    {a : α} {a' : β} (e : ℤ) (h : R a a') :
    Sim R (MixedNum.mixedPowiVia a e) (MixedNum.mixedPowiVia a' e) := by
  exact powi _ h

theorem beta {R : α → β → Prop} [MixedCmp α] [MixedCmp β] [Cmp R] [Lit α] [Lit β] [Lits R]
    {a : α} {a' : β} (h : R a a') :
    Sim R (MixedNum.beta a) (MixedNum.beta a') := by
  unfold MixedNum.beta; simulate

theorem normalize {R : α → β → Prop} [MixedCmp α] [MixedCmp β] [Cmp R] [NumOps α] [NumOps β] [Num R] [Lit α] [Lit β] [Lits R]
    {c c' : Counter} (hc : ∀ n, Sim Eq (c.fit n) (c'.fit n)) {a : α} {a' : β} (h : R a a') :
    Sim (fun s t => R s.1 t.1 ∧ s.2 = t.2) (niirfNormalize c a) (niirfNormalize c' a') := by
  unfold niirfNormalize
  refine Sim.bind (R := fun s t => R s.1 t.1 ∧ s.2 = t.2) (Sim.loop (fun s t h => ?_) ?_ ⟨h, rfl⟩) fun s t h => Sim.loop (fun s t h => ?_) ?_ h
  · exact Sim.bind (Lits.ofF64 _) fun _ _ hq => Sim.pure (Cmp.lt h.1 hq)
  · rintro ⟨s, k⟩ ⟨t, _⟩ ⟨h, rfl⟩
    exact Sim.bind (hc _) fun _ _ hk => Sim.bind (Lits.ofI32 4) fun _ _ h4 => Sim.bind (Num.mul h h4) fun _ _ hm => Sim.pure ⟨hm, hk⟩
  · exact Sim.bind (Lits.ofF64 _) fun _ _ hq => Sim.pure (Cmp.le hq h.1)
  · rintro ⟨s, k⟩ ⟨t, _⟩ ⟨h, rfl⟩
    exact Sim.bind (hc _) fun _ _ hk => Sim.bind (Lits.ofI32 4) fun _ _ h4 => Sim.bind (Num.div h h4) fun _ _ hm => Sim.pure ⟨hm, hk⟩

theorem iter {R : α → β → Prop} [MixedCmp α] [MixedCmp β] [Cmp R] [NumOps α] [NumOps β] [Num R] [Lit α] [Lit β] [Lits R]
    [MixedPowi α] [MixedPowi β] [Powi R]
    {a b : α} {a' b' : β} (k : ℕ) (h : R a a') (h' : R b b') :
    Sim R (niirfIter a k b) (niirfIter a' k b') := by
  induction k generalizing b b' with
  | zero => exact Sim.pure h'
  | succ k ih =>
    unfold niirfIter
    refine Sim.bind (beta h) fun _ _ hb => ?_
    refine Sim.bind (Powi.powi 2 h') fun _ _ h1 => ?_
    refine Sim.bind (Num.sub h h1) fun _ _ h2 => ?_
    refine Sim.bind (Num.mul hb h2) fun _ _ h3 => ?_
    exact Sim.bind (Num.add h3 h') fun _ _ h => ih h

theorem denormalize {R : α → β → Prop} [NumOps α] [NumOps β] [Num R] [Lit α] [Lit β] [Lits R]
    {c c' : Counter} (hc : ∀ n, Sim Eq (c.fit n) (c'.fit n)) {a : α} {a' : β} (k : ℤ) (h : R a a') :
    Sim R (niirfDenormalize c a k) (niirfDenormalize c' a' k) := by
  unfold niirfDenormalize
  refine Sim.bind (R := fun s t => R s.1 t.1 ∧ s.2 = t.2) (Sim.loop ?_ ?_ ⟨h, rfl⟩) fun s t h => Sim.pure h.1
  · rintro ⟨s, k⟩ ⟨t, _⟩ ⟨h, rfl⟩
    exact Sim.bind (hc _) fun _ _ hk => Sim.pure (by rw [hk])
  · rintro ⟨s, k⟩ ⟨t, _⟩ ⟨h, rfl⟩
    refine Sim.ite_prop Iff.rfl ?_ (Sim.ite_prop Iff.rfl ?_ (Sim.pure ⟨h, rfl⟩))
    · exact Sim.bind (Lits.ofI32 2) fun _ _ h2 => Sim.bind (Num.mul h h2) fun _ _ hm => Sim.bind (hc _) fun _ _ hk => Sim.pure ⟨hm, hk⟩
    · exact Sim.bind (Lits.ofI32 2) fun _ _ h2 => Sim.bind (Num.div h h2) fun _ _ hm => Sim.bind (hc _) fun _ _ hk => Sim.pure ⟨hm, hk⟩

theorem niirf {R : α → β → Prop} [MixedCmp α] [MixedCmp β] [Cmp R] [NumOps α] [NumOps β] [Num R] [Lit α] [Lit β] [Lits R]
    [MixedPowi α] [MixedPowi β] [Powi R] [MixedAbs α] [MixedAbs β] [Abs R] [MixedZero α] [MixedZero β] [Zero R]
    {c c' : Counter} (hc : ∀ n, Sim Eq (c.fit n) (c'.fit n)) {a : α} {a' : β} (n : ℕ) (h : R a a') :
    Sim R (MixedNum.niirf c a n) (MixedNum.niirf c' a' n) := by
  unfold MixedNum.niirf
  refine Sim.ite (Cmp.beq h Zero.zero) (Sim.pure Zero.zero) ?_
  refine Sim.bind (Abs.abs h) fun _ _ h => Sim.bind (normalize hc h) ?_
  rintro ⟨s, k⟩ ⟨t, _⟩ ⟨h, rfl⟩
  refine Sim.bind (Lits.ofI32 2) fun _ _ h2 => Sim.bind (Num.mul h2 h) fun _ _ h3 => Sim.bind (Lits.ofI32 3) fun _ _ h4 => ?_
  refine Sim.bind (Num.div h3 h4) fun _ _ h5 => Sim.bind (Lits.ofF64 _) fun _ _ h6 => Sim.bind (Num.add h5 h6) fun _ _ h7 => ?_
  exact Sim.bind (iter _ h h7) fun _ _ h8 => denormalize hc _ h8

theorem atanPoly1 {R : α → β → Prop} [NumOps α] [NumOps β] [Num R] [Lit α] [Lit β] [Lits R] [MixedPowi α] [MixedPowi β] [Powi R]
    {a b : α} {a' b' : β} (h : R a a') (h' : R b b') :
    Sim R (MixedNum.atanPoly1 a b) (MixedNum.atanPoly1 a' b') := by
  unfold MixedNum.atanPoly1; simulate

theorem atanPoly2 {R : α → β → Prop} [NumOps α] [NumOps β] [Num R] [Lit α] [Lit β] [Lits R] [MixedPowi α] [MixedPowi β] [Powi R]
    {a b : α} {a' b' : β} (h : R a a') (h' : R b b') :
    Sim R (MixedNum.atanPoly2 a b) (MixedNum.atanPoly2 a' b') := by
  unfold MixedNum.atanPoly2; simulate

theorem atan2Poly {R : α → β → Prop} [MixedCmp α] [MixedCmp β] [Cmp R] [NumOps α] [NumOps β] [Num R] [Lit α] [Lit β] [Lits R]
    [MixedPi α] [MixedPi β] [Pi R] [MixedNumSigned α] [MixedNumSigned β] [Neg R] [MixedPowi α] [MixedPowi β] [Powi R] [MixedAbs α]
    [MixedAbs β] [Abs R] [MixedZero α] [MixedZero β] [Zero R] [MixedReal α] [MixedReal β] [Real R]
    {a b : α} {a' b' : β} (h : R a a') (h' : R b b') :
    Sim R (MixedNum.atan2Poly a b) (MixedNum.atan2Poly a' b') := by
  unfold MixedNum.atan2Poly
  have h1 := atanPoly1 h h'
  have h2 := atanPoly2 h h'
  simulate

theorem atanPoly {R : α → β → Prop} [MixedCmp α] [MixedCmp β] [Cmp R] [NumOps α] [NumOps β] [Num R] [Lit α] [Lit β] [Lits R]
    [MixedPi α] [MixedPi β] [Pi R] [MixedNumSigned α] [MixedNumSigned β] [Neg R] [MixedPowi α] [MixedPowi β] [Powi R] [MixedAbs α]
    [MixedAbs β] [Abs R] [MixedZero α] [MixedZero β] [Zero R] [MixedReal α] [MixedReal β] [Real R] [MixedOne α] [MixedOne β]
    [One R]
    {a : α} {a' : β} (h : R a a') :
    Sim R (MixedNum.atanPoly a) (MixedNum.atanPoly a') := by
  unfold MixedNum.atanPoly
  exact Sim.bind One.one fun _ _ h' => atan2Poly h h'

/-- Related Cartesian numbers: both parts are. -/
def Cart (R : α → β → Prop) (z : Cartesian α) (w : Cartesian β) : Prop := R z.re w.re ∧ R z.im w.im
/-- Related polar numbers: both parts are. -/
def Pol (R : α → β → Prop) (z : Polar α) (w : Polar β) : Prop := R z.mag w.mag ∧ R z.ang w.ang

theorem opsAbs {R : α → β → Prop} [NumOps α] [NumOps β] [Num R] [MixedPowi α] [MixedPowi β] [Powi R] [MixedSqrt α] [MixedSqrt β] [Sqrt R]
    {z : Cartesian α} {z' : Cartesian β} (hz : Cart R z z') :
    Sim R (ops.abs z) (ops.abs z') := by
  obtain ⟨h1, h2⟩ := hz; unfold ops.abs; simulate

theorem opsToPolar {R : α → β → Prop} [NumOps α] [NumOps β] [Num R] [MixedPowi α] [MixedPowi β] [Powi R] [MixedSqrt α]
    [MixedSqrt β] [Sqrt R] [MixedAtan α] [MixedAtan β] [Atan R]
    {z : Cartesian α} {z' : Cartesian β} (hz : Cart R z z') :
    Sim (Pol R) (ops.toPolar z) (ops.toPolar z') := by
  refine Sim.bind (opsAbs hz) fun _ _ h => ?_
  obtain ⟨h1, h2⟩ := hz
  simulate

theorem opsToCartesian {R : α → β → Prop} [MixedCmp α] [MixedCmp β] [Cmp R] [NumOps α] [NumOps β] [Num R] [Lit α] [Lit β] [Lits R]
    [MixedPi α] [MixedPi β] [Pi R] [MixedNumSigned α] [MixedNumSigned β] [Neg R] [MixedSinCos α] [MixedSinCos β] [SinCos R]
    {z : Polar α} {z' : Polar β} (hz : Pol R z z') :
    Sim (Cart R) (ops.toCartesian z) (ops.toCartesian z') := by
  obtain ⟨h1, h2⟩ := hz
  refine Sim.bind (wrapPhase h2) fun _ _ h => Sim.bind (SinCos.sincos h) ?_
  rintro ⟨s, c⟩ ⟨s', c'⟩ ⟨h3, h4⟩
  dsimp only at h3 h4 ⊢
  simulate

theorem opsAdd {R : α → β → Prop} [NumOps α] [NumOps β] [Num R]
    {z : Cartesian α} {z' : Cartesian β} {w : Cartesian α} {w' : Cartesian β} (hz : Cart R z z') (hw : Cart R w w') :
    Sim (Cart R) (ops.add z w) (ops.add z' w') := by
  obtain ⟨h1, h2⟩ := hz; obtain ⟨h3, h4⟩ := hw; unfold ops.add; simulate

theorem opsSub {R : α → β → Prop} [NumOps α] [NumOps β] [Num R]
    {z : Cartesian α} {z' : Cartesian β} {w : Cartesian α} {w' : Cartesian β} (hz : Cart R z z') (hw : Cart R w w') :
    Sim (Cart R) (ops.sub z w) (ops.sub z' w') := by
  obtain ⟨h1, h2⟩ := hz; obtain ⟨h3, h4⟩ := hw; unfold ops.sub; simulate

theorem opsMulPolar {R : α → β → Prop} [MixedCmp α] [MixedCmp β] [Cmp R] [NumOps α] [NumOps β] [Num R] [Lit α] [Lit β] [Lits R]
    {z : Polar α} {z' : Polar β} {w : Polar α} {w' : Polar β} (hz : Pol R z z') (hw : Pol R w w') :
    Sim (Pol R) (ops.mulPolar z w) (ops.mulPolar z' w') := by
  obtain ⟨h1, h2⟩ := hz; obtain ⟨h3, h4⟩ := hw; unfold ops.mulPolar
  refine Sim.bind (Lits.ofI32 _) fun _ _ h0 => ?_
  refine Sim.ite (by rw [Cmp.beq h1 h0, Cmp.beq h3 h0]) ?_ ?_ <;> simulate

theorem opsMulCartesian {R : α → β → Prop} [NumOps α] [NumOps β] [Num R]
    {z : Cartesian α} {z' : Cartesian β} {w : Cartesian α} {w' : Cartesian β} (hz : Cart R z z') (hw : Cart R w w') :
    Sim (Cart R) (ops.mulCartesian z w) (ops.mulCartesian z' w') := by
  obtain ⟨h1, h2⟩ := hz; obtain ⟨h3, h4⟩ := hw; unfold ops.mulCartesian; simulate

theorem opsPowi {R : α → β → Prop} [NumOps α] [NumOps β] [Num R] [MixedPowi α] [MixedPowi β] [Powi R] [MixedSqrt α] [MixedSqrt β]
    [Sqrt R] [MixedAtan α] [MixedAtan β] [Atan R] [MixedSinCos α] [MixedSinCos β] [SinCos R] [FromUsize α] [FromUsize β] [Usize R]
    {z : Cartesian α} {z' : Cartesian β} (n : ℕ) (hz : Cart R z z') :
    Sim (Cart R) (ops.powi z n) (ops.powi z' n) := by
  obtain ⟨h1, h2⟩ := hz
  refine Sim.bind (Powi.powi 2 h1) fun _ _ h3 => Sim.bind (Powi.powi 2 h2) fun _ _ h4 => Sim.bind (Num.add h3 h4) fun _ _ h5 => ?_
  refine Sim.bind (Sqrt.sqrt h5) fun _ _ h6 => Sim.bind (Powi.powi _ h6) fun _ _ h7 => Sim.bind (Atan.atan2 h2 h1) fun _ _ h8 => ?_
  refine Sim.bind (Usize.ofUsize n) fun _ _ h9 => Sim.bind (Num.mul h8 h9) fun _ _ h10 => Sim.bind (SinCos.sincos h10) ?_
  rintro ⟨s, c⟩ ⟨s', c'⟩ ⟨h11, h12⟩
  dsimp only at h11 h12 ⊢
  simulate

theorem opsDivScalar {R : α → β → Prop} [MixedCmp α] [MixedCmp β] [Cmp R] [NumOps α] [NumOps β] [Num R] [Lit α] [Lit β] [Lits R]
    [MixedReal α] [MixedReal β] [Real R]
    {z : Cartesian α} {z' : Cartesian β} {w : α} {w' : β} (hz : Cart R z z') (hw : R w w') :
    Sim (Cart R) (ops.divScalarCartesian z w) (ops.divScalarCartesian z' w') := by
  obtain ⟨h1, h2⟩ := hz; unfold ops.divScalarCartesian; simulate

theorem opsDiv {R : α → β → Prop} [NumOps α] [NumOps β] [Num R] [MixedPowi α] [MixedPowi β] [Powi R]
    {z : Cartesian α} {z' : Cartesian β} {w : Cartesian α} {w' : Cartesian β} (hz : Cart R z z') (hw : Cart R w w') :
    Sim (Cart R) (ops.divCartesian z w) (ops.divCartesian z' w') := by
  obtain ⟨h1, h2⟩ := hz; obtain ⟨h3, h4⟩ := hw; unfold ops.divCartesian; simulate

theorem newFromPolar {R : α → β → Prop} [MixedCmp α] [MixedCmp β] [Cmp R] [NumOps α] [NumOps β] [Num R] [Lit α] [Lit β] [Lits R]
    [MixedPi α] [MixedPi β] [Pi R] [MixedNumSigned α] [MixedNumSigned β] [Neg R] [MixedSinCos α] [MixedSinCos β] [SinCos R]
    {a b : α} {a' b' : β} (h : R a a') (h' : R b b') :
    Sim (Cart R) (Cartesian.newFromPolar a b) (Cartesian.newFromPolar a' b') := by
  exact opsToCartesian ⟨h, h'⟩

theorem mag {R : α → β → Prop} [NumOps α] [NumOps β] [Num R] [MixedPowi α] [MixedPowi β] [Powi R] [MixedSqrt α] [MixedSqrt β] [Sqrt R]
    {z : Cartesian α} {z' : Cartesian β} (hz : Cart R z z') :
    Sim R (Cartesian.mag z) (Cartesian.mag z') := by
  obtain ⟨h1, h2⟩ := hz; unfold Cartesian.mag; simulate

theorem mixedAbs {R : α → β → Prop} [NumOps α] [NumOps β] [Num R] [MixedPowi α] [MixedPowi β] [Powi R] [MixedSqrt α] [MixedSqrt β]
    [Sqrt R] [MixedZero α] [MixedZero β] [Zero R]
    {z : Cartesian α} {z' : Cartesian β} (hz : Cart R z z') :
    Sim (Cart R) (Cartesian.mixedAbs z) (Cartesian.mixedAbs z') := by
  exact Sim.bind (mag hz) fun _ _ h => Sim.pure ⟨h, Zero.zero⟩

theorem arg {R : α → β → Prop} [MixedAtan α] [MixedAtan β] [Atan R]
    {z : Cartesian α} {z' : Cartesian β} (hz : Cart R z z') :
    Sim R (Cartesian.arg z) (Cartesian.arg z') := by
  exact Atan.atan2 hz.2 hz.1

theorem mul {R : α → β → Prop} [NumOps α] [NumOps β] [Num R]
    {z : Cartesian α} {z' : Cartesian β} {w : Cartesian α} {w' : Cartesian β} (hz : Cart R z z') (hw : Cart R w w') :
    Sim (Cart R) (Cartesian.mul z w) (Cartesian.mul z' w') := by
  exact opsMulCartesian hz hw

theorem mulPolar {R : α → β → Prop} [MixedCmp α] [MixedCmp β] [Cmp R] [NumOps α] [NumOps β] [Num R] [Lit α] [Lit β] [Lits R]
    [MixedPi α] [MixedPi β] [Pi R] [MixedNumSigned α] [MixedNumSigned β] [Neg R] [MixedSinCos α] [MixedSinCos β] [SinCos R]
    {z : Cartesian α} {z' : Cartesian β} {w : Polar α} {w' : Polar β} (hz : Cart R z z') (hw : Pol R w w') :
    Sim (Cart R) (Cartesian.mulPolar z w) (Cartesian.mulPolar z' w') := by
  exact Sim.bind (opsToCartesian hw) fun _ _ h => opsMulCartesian hz h

theorem mulAssignPolar {R : α → β → Prop} [MixedCmp α] [MixedCmp β] [Cmp R] [NumOps α] [NumOps β] [Num R] [Lit α] [Lit β] [Lits R]
    [MixedPi α] [MixedPi β] [Pi R] [MixedNumSigned α] [MixedNumSigned β] [Neg R] [MixedSinCos α] [MixedSinCos β] [SinCos R]
    {z : Cartesian α} {z' : Cartesian β} {w : Polar α} {w' : Polar β} (hz : Cart R z z') (hw : Pol R w w') :
    Sim (Cart R) (Cartesian.mulAssignPolar z w) (Cartesian.mulAssignPolar z' w') := by
  exact Sim.bind (opsToCartesian hw) fun _ _ h => mul hz h

theorem add {R : α → β → Prop} [NumOps α] [NumOps β] [Num R]
    {z : Cartesian α} {z' : Cartesian β} {w : Cartesian α} {w' : Cartesian β} (hz : Cart R z z') (hw : Cart R w w') :
    Sim (Cart R) (Cartesian.add z w) (Cartesian.add z' w') := by
  obtain ⟨h1, h2⟩ := hz; obtain ⟨h3, h4⟩ := hw; unfold Cartesian.add; simulate

theorem addAssign {R : α → β → Prop} [NumOps α] [NumOps β] [Num R]
    {z : Cartesian α} {z' : Cartesian β} {w : Cartesian α} {w' : Cartesian β} (hz : Cart R z z') (hw : Cart R w w') :
    Sim (Cart R) (Cartesian.addAssign z w) (Cartesian.addAssign z' w') := by
  obtain ⟨h1, h2⟩ := hz; obtain ⟨h3, h4⟩ := hw; unfold Cartesian.addAssign; simulate

theorem sub {R : α → β → Prop} [NumOps α] [NumOps β] [Num R]
    {z : Cartesian α} {z' : Cartesian β} {w : Cartesian α} {w' : Cartesian β} (hz : Cart R z z') (hw : Cart R w w') :
    Sim (Cart R) (Cartesian.sub z w) (Cartesian.sub z' w') := by
  obtain ⟨h1, h2⟩ := hz; obtain ⟨h3, h4⟩ := hw; unfold Cartesian.sub; simulate

theorem subAssign {R : α → β → Prop} [NumOps α] [NumOps β] [Num R]
    {z : Cartesian α} {z' : Cartesian β} {w : Cartesian α} {w' : Cartesian β} (hz : Cart R z z') (hw : Cart R w w') :
    Sim (Cart R) (Cartesian.subAssign z w) (Cartesian.subAssign z' w') := by
  obtain ⟨h1, h2⟩ := hz; obtain ⟨h3, h4⟩ := hw; unfold Cartesian.subAssign; simulate

theorem addNC {R : α → β → Prop} [NumOps α] [NumOps β] [Num R]
    {z : Cartesian α} {z' : Cartesian β} {w : NumComplex α} {w' : NumComplex β} (hz : Cart R z z') (hw : R w.re w'.re ∧ R w.im w'.im) :
    Sim (Cart R) (Cartesian.addNC z w) (Cartesian.addNC z' w') := by
  obtain ⟨h1, h2⟩ := hz; obtain ⟨h3, h4⟩ := hw; unfold Cartesian.addNC; simulate

theorem addAssignNC {R : α → β → Prop} [NumOps α] [NumOps β] [Num R]
    {z : Cartesian α} {z' : Cartesian β} {w : NumComplex α} {w' : NumComplex β} (hz : Cart R z z') (hw : R w.re w'.re ∧ R w.im w'.im) :
    Sim (Cart R) (Cartesian.addAssignNC z w) (Cartesian.addAssignNC z' w') := by
  obtain ⟨h1, h2⟩ := hz; obtain ⟨h3, h4⟩ := hw; unfold Cartesian.addAssignNC; simulate

theorem subNC {R : α → β → Prop} [NumOps α] [NumOps β] [Num R]
    {z : Cartesian α} {z' : Cartesian β} {w : NumComplex α} {w' : NumComplex β} (hz : Cart R z z') (hw : R w.re w'.re ∧ R w.im w'.im) :
    Sim (Cart R) (Cartesian.subNC z w) (Cartesian.subNC z' w') := by
  obtain ⟨h1, h2⟩ := hz; obtain ⟨h3, h4⟩ := hw; unfold Cartesian.subNC; simulate

theorem subAssignNC {R : α → β → Prop} [NumOps α] [NumOps β] [Num R]
    {z : Cartesian α} {z' : Cartesian β} {w : NumComplex α} {w' : NumComplex β} (hz : Cart R z z') (hw : R w.re w'.re ∧ R w.im w'.im) :
    Sim (Cart R) (Cartesian.subAssignNC z w) (Cartesian.subAssignNC z' w') := by
  obtain ⟨h1, h2⟩ := hz; obtain ⟨h3, h4⟩ := hw; unfold Cartesian.subAssignNC; simulate

theorem div {R : α → β → Prop} [NumOps α] [NumOps β] [Num R] [MixedPowi α] [MixedPowi β] [Powi R]
    {z : Cartesian α} {z' : Cartesian β} {w : Cartesian α} {w' : Cartesian β} (hz : Cart R z z') (hw : Cart R w w') :
    Sim (Cart R) (Cartesian.div z w) (Cartesian.div z' w') := by
  obtain ⟨h1, h2⟩ := hz; obtain ⟨h3, h4⟩ := hw; unfold Cartesian.div; simulate

theorem divAssign {R : α → β → Prop} [NumOps α] [NumOps β] [Num R] [MixedPowi α] [MixedPowi β] [Powi R]
    {z : Cartesian α} {z' : Cartesian β} {w : Cartesian α} {w' : Cartesian β} (hz : Cart R z z') (hw : Cart R w w') :
    Sim (Cart R) (Cartesian.divAssign z w) (Cartesian.divAssign z' w') := by
  obtain ⟨h1, h2⟩ := hz; obtain ⟨h3, h4⟩ := hw; unfold Cartesian.divAssign; simulate

theorem divNC {R : α → β → Prop} [NumOps α] [NumOps β] [Num R] [MixedPowi α] [MixedPowi β] [Powi R]
    {z : Cartesian α} {z' : Cartesian β} {w : NumComplex α} {w' : NumComplex β} (hz : Cart R z z') (hw : R w.re w'.re ∧ R w.im w'.im) :
    Sim (Cart R) (Cartesian.divNC z w) (Cartesian.divNC z' w') := by
  obtain ⟨h1, h2⟩ := hz; obtain ⟨h3, h4⟩ := hw; unfold Cartesian.divNC; simulate

theorem divAssignNC {R : α → β → Prop} [NumOps α] [NumOps β] [Num R] [MixedPowi α] [MixedPowi β] [Powi R]
    {z : Cartesian α} {z' : Cartesian β} {w : NumComplex α} {w' : NumComplex β} (hz : Cart R z z') (hw : R w.re w'.re ∧ R w.im w'.im) :
    Sim (Cart R) (Cartesian.divAssignNC z w) (Cartesian.divAssignNC z' w') := by
  obtain ⟨h1, h2⟩ := hz; obtain ⟨h3, h4⟩ := hw; unfold Cartesian.divAssignNC; simulate

theorem conj {R : α → β → Prop} [MixedNumSigned α] [MixedNumSigned β] [Neg R]
    {z : Cartesian α} {z' : Cartesian β} (hz : Cart R z z') :
    Sim (Cart R) (Cartesian.conj z) (Cartesian.conj z') := by
  obtain ⟨h1, h2⟩ := hz; unfold Cartesian.conj; simulate

theorem conjPolar {R : α → β → Prop} [NumOps α] [NumOps β] [Num R] [MixedPowi α] [MixedPowi β] [Powi R] [MixedSqrt α]
    [MixedSqrt β] [Sqrt R] [MixedAtan α] [MixedAtan β] [Atan R] [MixedNumSigned α] [MixedNumSigned β] [Neg R]
    {z : Cartesian α} {z' : Cartesian β} (hz : Cart R z z') :
    Sim (Pol R) (Cartesian.conjPolar z) (Cartesian.conjPolar z') := by
  exact Sim.bind (Neg.neg hz.2) fun _ _ h => opsToPolar ⟨hz.1, h⟩

theorem exp {R : α → β → Prop} [NumOps α] [NumOps β] [Num R] [MixedSinCos α] [MixedSinCos β] [SinCos R] [MixedExp α] [MixedExp β] [Exp R]
    {z : Cartesian α} {z' : Cartesian β} (hz : Cart R z z') :
    Sim (Cart R) (Cartesian.exp z) (Cartesian.exp z') := by
  obtain ⟨h1, h2⟩ := hz
  refine Sim.bind (SinCos.sincos h2) ?_
  rintro ⟨s, c⟩ ⟨s', c'⟩ ⟨h3, h4⟩
  dsimp only at h3 h4 ⊢
  refine Sim.bind (Exp.exp h1) fun _ _ h5 => ?_
  exact Sim.bind (Num.mul h4 h5) fun _ _ h6 => Sim.bind (Num.mul h3 h5) fun _ _ h7 => Sim.pure ⟨h6, h7⟩

theorem mulScalar {R : α → β → Prop} {S : γ → δ → Prop} [NumOps α] [NumOps β] [Num R]  [Conv γ α] [Conv δ β]
    [Convs S R] {z : Cartesian α} {z' : Cartesian β} {t : γ} {t' : δ} (hz : Cart R z z') (ht : S t t') :
    Sim (Cart R) (Cartesian.mulScalar z t) (Cartesian.mulScalar z' t') := by
  obtain ⟨h1, h2⟩ := hz; have hf : Sim R (Conv.fromNum t) (Conv.fromNum t') := Convs.fromNum (R := S) ht
  unfold Cartesian.mulScalar; simulate

theorem addScalar {R : α → β → Prop} {S : γ → δ → Prop} [NumOps α] [NumOps β] [Num R]  [Conv γ α] [Conv δ β]
    [Convs S R] {z : Cartesian α} {z' : Cartesian β} {t : γ} {t' : δ} (hz : Cart R z z') (ht : S t t') :
    Sim (Cart R) (Cartesian.addScalar z t) (Cartesian.addScalar z' t') := by
  obtain ⟨h1, h2⟩ := hz; have hf : Sim R (Conv.fromNum t) (Conv.fromNum t') := Convs.fromNum (R := S) ht
  unfold Cartesian.addScalar; simulate

theorem addAssignScalar {R : α → β → Prop} {S : γ → δ → Prop} [NumOps α] [NumOps β] [Num R]  [Conv γ α] [Conv δ β]
    [Convs S R] {z : Cartesian α} {z' : Cartesian β} {t : γ} {t' : δ} (hz : Cart R z z') (ht : S t t') :
    Sim (Cart R) (Cartesian.addAssignScalar z t) (Cartesian.addAssignScalar z' t') := by
  obtain ⟨h1, h2⟩ := hz; have hf : Sim R (Conv.fromNum t) (Conv.fromNum t') := Convs.fromNum (R := S) ht
  unfold Cartesian.addAssignScalar; simulate

theorem subScalar {R : α → β → Prop} {S : γ → δ → Prop} [NumOps α] [NumOps β] [Num R]  [Conv γ α] [Conv δ β]
    [Convs S R] {z : Cartesian α} {z' : Cartesian β} {t : γ} {t' : δ} (hz : Cart R z z') (ht : S t t') :
    Sim (Cart R) (Cartesian.subScalar z t) (Cartesian.subScalar z' t') := by
  obtain ⟨h1, h2⟩ := hz; have hf : Sim R (Conv.fromNum t) (Conv.fromNum t') := Convs.fromNum (R := S) ht
  unfold Cartesian.subScalar; simulate

theorem subAssignScalar {R : α → β → Prop} {S : γ → δ → Prop} [NumOps α] [NumOps β] [Num R]  [Conv γ α] [Conv δ β]
    [Convs S R] {z : Cartesian α} {z' : Cartesian β} {t : γ} {t' : δ} (hz : Cart R z z') (ht : S t t') :
    Sim (Cart R) (Cartesian.subAssignScalar z t) (Cartesian.subAssignScalar z' t') := by
  obtain ⟨h1, h2⟩ := hz; have hf : Sim R (Conv.fromNum t) (Conv.fromNum t') := Convs.fromNum (R := S) ht
  unfold Cartesian.subAssignScalar; simulate

theorem divScalar {R : α → β → Prop} {S : γ → δ → Prop} [NumOps α] [NumOps β] [Num R] [MixedReal α] [MixedReal β] [Real R]
    [MixedCmp γ] [MixedCmp δ] [Cmp S] [MixedZero γ] [MixedZero δ] [Zero S] [Conv γ α] [Conv δ β]
    [Convs S R] {z : Cartesian α} {z' : Cartesian β} {t : γ} {t' : δ} (hz : Cart R z z') (ht : S t t') :
    Sim (Cart R) (Cartesian.divScalar z t) (Cartesian.divScalar z' t') := by
  obtain ⟨h1, h2⟩ := hz; have hf : Sim R (Conv.fromNum t) (Conv.fromNum t') := Convs.fromNum (R := S) ht
  have hb : MixedCmp.beq t MixedZero.zero = MixedCmp.beq t' MixedZero.zero := Cmp.beq ht Zero.zero
  unfold Cartesian.divScalar; simulate

theorem divAssignScalar {R : α → β → Prop} {S : γ → δ → Prop} [NumOps α] [NumOps β] [Num R] [MixedReal α] [MixedReal β] [Real R]
    [MixedCmp γ] [MixedCmp δ] [Cmp S] [MixedZero γ] [MixedZero δ] [Zero S] [Conv γ α] [Conv δ β]
    [Convs S R] {z : Cartesian α} {z' : Cartesian β} {t : γ} {t' : δ} (hz : Cart R z z') (ht : S t t') :
    Sim (Cart R) (Cartesian.divAssignScalar z t) (Cartesian.divAssignScalar z' t') := by
  have hf : Sim R (Conv.fromNum t) (Conv.fromNum t') := Convs.fromNum (R := S) ht
  have hb : MixedCmp.beq t MixedZero.zero = MixedCmp.beq t' MixedZero.zero := Cmp.beq ht Zero.zero
  unfold Cartesian.divAssignScalar
  dsimp only
  refine Sim.ite hb ?_ ?_
  · refine Sim.bind (R := Cart R) ?_ fun _ _ hz => ?_
    · refine Sim.bind Real.maxValue fun _ _ h1 => Sim.bind Real.maxValue fun _ _ h2 => Sim.pure ⟨h1, h2⟩
    · obtain ⟨h1, h2⟩ := hz
      simulate
  · refine Sim.bind (R := Cart R) (Sim.pure hz) fun _ _ hz => ?_
    obtain ⟨h1, h2⟩ := hz
    simulate

theorem polarNewFromCartesian {R : α → β → Prop} [NumOps α] [NumOps β] [Num R] [MixedPowi α] [MixedPowi β] [Powi R] [MixedSqrt α]
    [MixedSqrt β] [Sqrt R] [MixedAtan α] [MixedAtan β] [Atan R]
    {a b : α} {a' b' : β} (h : R a a') (h' : R b b') :
    Sim (Pol R) (Polar.newFromCartesian a b) (Polar.newFromCartesian a' b') := by
  exact opsToPolar ⟨h, h'⟩

theorem polarMul {R : α → β → Prop} [MixedCmp α] [MixedCmp β] [Cmp R] [NumOps α] [NumOps β] [Num R] [Lit α] [Lit β] [Lits R]
    {z : Polar α} {z' : Polar β} {w : Polar α} {w' : Polar β} (hz : Pol R z z') (hw : Pol R w w') :
    Sim (Pol R) (Polar.mul z w) (Polar.mul z' w') := by
  exact opsMulPolar hz hw

theorem polarMulCartesian {R : α → β → Prop} [MixedCmp α] [MixedCmp β] [Cmp R] [NumOps α] [NumOps β] [Num R] [Lit α] [Lit β]
    [Lits R] [MixedPowi α] [MixedPowi β] [Powi R] [MixedSqrt α] [MixedSqrt β] [Sqrt R] [MixedAtan α] [MixedAtan β] [Atan R]
    {z : Polar α} {z' : Polar β} {w : Cartesian α} {w' : Cartesian β} (hz : Pol R z z') (hw : Cart R w w') :
    Sim (Pol R) (Polar.mulCartesian z w) (Polar.mulCartesian z' w') := by
  exact Sim.bind (opsToPolar hw) fun _ _ h => opsMulPolar hz h

theorem polarMulScalar {R : α → β → Prop} [NumOps α] [NumOps β] [Num R]
    {z : Polar α} {z' : Polar β} {w : α} {w' : β} (hz : Pol R z z') (hw : R w w') :
    Sim (Pol R) (Polar.mulScalar z w) (Polar.mulScalar z' w') := by
  obtain ⟨h1, h2⟩ := hz; unfold Polar.mulScalar; simulate

theorem polarDivScalar {R : α → β → Prop} [MixedCmp α] [MixedCmp β] [Cmp R] [NumOps α] [NumOps β] [Num R] [MixedZero α]
    [MixedZero β] [Zero R] [MixedReal α] [MixedReal β] [Real R]
    {z : Polar α} {z' : Polar β} {w : α} {w' : β} (hz : Pol R z z') (hw : R w w') :
    Sim (Pol R) (Polar.divScalar z w) (Polar.divScalar z' w') := by
  obtain ⟨h1, h2⟩ := hz; unfold Polar.divScalar; simulate

theorem polarConj {R : α → β → Prop} [MixedNumSigned α] [MixedNumSigned β] [Neg R]
    {z : Polar α} {z' : Polar β} (hz : Pol R z z') :
    Sim (Pol R) (Polar.conj z) (Polar.conj z') := by
  obtain ⟨h1, h2⟩ := hz; unfold Polar.conj; simulate

theorem polarConjCartesian {R : α → β → Prop} [MixedCmp α] [MixedCmp β] [Cmp R] [NumOps α] [NumOps β] [Num R] [Lit α] [Lit β]
    [Lits R] [MixedPi α] [MixedPi β] [Pi R] [MixedNumSigned α] [MixedNumSigned β] [Neg R] [MixedSinCos α] [MixedSinCos β]
    [SinCos R]
    {z : Polar α} {z' : Polar β} (hz : Pol R z z') :
    Sim (Cart R) (Polar.conjCartesian z) (Polar.conjCartesian z') := by
  exact Sim.bind (Neg.neg hz.2) fun _ _ h => newFromPolar hz.1 h

theorem fmtAbs {R : α → β → Prop} [MixedCmp α] [MixedCmp β] [Cmp R] [MixedZero α] [MixedZero β] [Zero R] [NumOps α] [NumOps β] [Num R]
    {a : α} {a' : β} (h : R a a') :
    Sim R (MixedNum.fmtAbs a) (MixedNum.fmtAbs a') := by
  unfold MixedNum.fmtAbs; simulate

theorem writeComplex {R : α → β → Prop} [MixedCmp α] [MixedCmp β] [Cmp R] [MixedZero α] [MixedZero β] [Zero R] [NumOps α] [NumOps β] [Num R]
    (std : Bool) (f : FmtSpec) (pre : List Char) {render : Option ℕ → α → List Char} {render' : Option ℕ → β → List Char}
    (hr : ∀ p a b, R a b → render p a = render' p b) {z : Cartesian α} {z' : Cartesian β} (hz : Cart R z z') :
    Sim Eq (MixedNum.writeComplex std f pre render z) (MixedNum.writeComplex std f pre render' z') := by
  unfold MixedNum.writeComplex
  refine Sim.bind (fmtAbs hz.1) fun _ _ h1 => Sim.bind (fmtAbs hz.2) fun _ _ h2 => Sim.pure ?_
  rw [hr _ _ _ h1, hr _ _ _ h2, Cmp.lt hz.1 Zero.zero, Cmp.lt hz.2 Zero.zero]

end Sim
end MixedNum
