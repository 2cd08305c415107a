# Formal model of Mixed-Num in Lean 4

Source: `/repo` (crate `mixed-num` 0.5.5). Properties: `properties.jsonl` (generated by `tools/props.py`).
Status per property: `MANIFEST.json`. Wrong-program experiments: `seeded/LOG.jsonl`.

## How the code is modelled

* `Verif/Model/Prog.lean` - the effect of a Rust call: return a value, panic, or run on.
  `Prog α := Nat → Out α`: a program gets a loop-step budget and yields `ok`, `panic` or `timeout`.
  `Returns p v`, `Panics p e`, `Diverges p` are the budget-free readings (`∃ N, ∀ n ≥ N, p n = …`, `∀ n, p n = timeout`).
  A Rust `while` is `whileLoop`; a `for` over a range is structural recursion; a mutating method returns the new value.
* `Verif/Model/Traits.lean` - one Lean class per Rust trait the generic code needs (arithmetic, comparison, literals,
  `MixedPi`, `MixedAbs`, `MixedPowi`, `MixedSqrt`, `MixedSin`, `MixedAtan`, `MixedExp`, ...).
* `Verif/Model/Trig.lean`, `Atan.lean`, `Sqrt.lean` - `src/trigonometry*.rs`, written once, generic over the classes, as in Rust.
* `Verif/Model/Complex.lean` - `src/complex.rs`, `complex/ops.rs`, `cartesian_impl.rs`, `polar_impl.rs`.
* `Verif/Model/Delegate.lean`, `Db.lean` - methods that call `libm`/`cordic`, floor and ceiling, decibel conversions.
* `Verif/Model/Fmt.lean` - `cartesian_impl/num_complex_impl.rs` and `Polar`'s `Display`; the derived `Debug`. `Derive.lean` - the derived `Default`.
* Component types (instances of the classes):
  * `Word.lean`, `PInt.lean` - `iN`/`uN` for every width, with overflow checks (`checked`) or without (`wrapping`) - `src/int_impl.rs`.
  * `Fixed.lean` - `FixedI{W}<F>`/`FixedU{W}<F>` for every width W and fraction F, both overflow modes - `src/fixed_impl.rs`.
  * `Ieee.lean`, `Float.lean` - IEEE-754 binary values with round-to-nearest-even - `src/float_impl*.rs` arithmetic.
  * `Ideal.lean` - exact real arithmetic (the algorithm without rounding); division by zero is a failure, never 0.

Properties about the algorithms' accuracy are proved on `ℝ` (and, where stated, on fixed point with all rounding);
properties about overflow, panics and termination are proved on the integer / fixed-point / float instances;
properties that hold by the code's structure are proved generically, for every component type.

## Trusted base

* **Kernel.** Lean 4.33.0's kernel. No `sorry`, no `admit`, no axiom of our own, no `native_decide`, no `bv_decide`, no
  `implemented_by`, no `unsafe`. `decide +kernel` is used for closed numeric facts only; it is checked by the kernel.
  The tactic `run` (Lemmas/Run.lean) evaluates a concrete run with symbolic fuel: it produces `Eq.refl _`, which the kernel checks.
* **Axioms.** At most `propext`, `Classical.choice` and `Quot.sound`. `AXIOMS.txt` lists them theorem by theorem
  (written by `tools/axioms.py` from `#print axioms`).
* **Reading of the Rust code.** Every definition under `lean/Verif/Model/` cites the file and lines it was read from.
  `Verif/Tests/DocTests.lean` evaluates the model on examples from the crate's own documentation tests and compares with
  the values asserted there; this is a check of the reading, not a proof. `Verif/Tests/DocProofs.lean` has the same examples
  checked by the kernel, in both builds.
* **Build configuration.** The crate as built by default: `no_std`, so `powi` on floats is `num_traits::float::FloatCore::powi`;
  feature `std` is modelled where this crate tests for it (the width in `Display`), not in its dependencies. `usize` has 64 bits (`Model/Target.lean` takes its width as a parameter, for C132). Debug builds are mode `checked` (overflow panics), release builds
  are mode `wrapping`. A build that sets `overflow-checks` and `debug-assertions` differently is neither: the integers follow the
  one flag, crate `fixed` the other.
* **External crates**, from their documented behaviour (the sandbox has no copy):
  * `fixed` 1.13: `+ - * / neg abs from_num` panic on overflow in checked builds and wrap otherwise; `*` rounds toward minus
    infinity, `/` toward zero, division by zero always panics; `from_num` of a float rounds to nearest, ties to even;
    `to_num` of an integer type rounds toward minus infinity.
  * `num` 0.4: `pow` by repeated squaring and `FloatCore::powi` are modelled step by step.
  * `libm` and `cordic`: their functions are parameters (`Libm f`, `Cordic m W F` in `Model/Delegate.lean`), that is,
    arbitrary functions. Only `floor` and `ceil` are modelled exactly. Accuracy theorems that need them take it as an
    explicit hypothesis, listed below.
  * Rust `as` casts: integer wrap-around, saturating float to integer, round to nearest even to float.
  * IEEE-754 binary32/binary64, round to nearest, ties to even; NaN payloads are not distinguished, and the sign bit of NaN is an unknown constant (`opaque nanSign`).

### Hypotheses about external functions

Each is a predicate on a function parameter, never an axiom. Beside each theorem that uses one there is an example showing
that some function satisfies it, so no theorem is vacuous.

| predicate | says | used by |
|---|---|---|
| `LibmWithin f δ` (`Spec/Libm.lean`) | each libm function is within relative error δ of the real function on its domain | C97-C100 |
| `SqrtWithin f ε` (`Spec/Float.lean`) | relative error of the square root | C84, C89, C98 |
| `SinCosWithin`, `AtanWithin` | absolute error of sincos / atan2 on floats | C86, C89, C98 |
| `FixedSinCosWithin`, `FixedAtanWithin`, `FixedSinCosOn` | absolute error of cordic's sin_cos / atan2 (the last: on a given range of angles) | C88, C90, C108, C110 |
| `FloatText`, `FixedText` (`Spec/PartText.lean`) | texts of non-negative components are pairwise different, and signs occur only in exponents | C128 |
| `CordicWithin m W F δ` (`Spec/Libm.lean`) | each cordic function is within absolute error δ | C97, C100 |
| `CordicAlike W F` (`Spec/Modes.lean`) | each cordic function panics in the debug build or returns the same in both | C139 |

### What is modelled

* `src/complex.rs`, `src/complex/{cartesian_impl,polar_impl,ops}.rs`: all constructors, accessors, operators (by value, by
  reference through the same definition, assigning - `Model/Assign.lean` has these store by store), conversions, comparison, `Display`, complex `exp` and `powi`.
* `src/complex/cartesian_impl/num_complex_impl.rs`: conversions to and from `num::Complex`, and `Display`.
* `src/trigonometry.rs`, `src/trigonometry/{atan,sqrt}.rs`: `sign`, `sin`, `cos`, `wrap_phase`, `powi`, `atan_poly_1`,
  `atan_poly_2`, `atan2`, `atan`, `niirf` with its `beta`, generic over the component type. The counter of
  `niirf` is an `i32` that wraps or panics; only the instance on exact reals, which is not a Rust type, has it unbounded.
* `src/int_impl.rs` for every integer type, `src/fixed_impl.rs` for every width and fraction, `src/float_impl.rs` and
  `src/float_impl/{f32,f64}_impl.rs` for both formats (the model is generic in the format).
* `src/traits*.rs`: the traits as Lean classes.

### What is not modelled

* Memory layout (`repr(C)`), `Copy`; of the running time only the passes of loops and the multiplications of `powi` (C135).
* `core::fmt` rendering of a component (a parameter, except decimal, hexadecimal, octal and binary integers, which are modelled).
* The bodies of `libm` and `cordic` functions (see above).
* Code that is commented out (`src/fixed_impl.rs:60-99`).
* What the `std` feature changes in the dependencies; 32-bit targets, except for integer powers (`Model/Target.lean`, C132).

## Properties false of the code

Each has a concrete counterexample theorem, an exact description where one was found, and a `_partial` theorem for the part
that holds. Statuses are `partial` in `MANIFEST.json`; none is partial for lack of a proof of something believed true.

| id | finding |
|---|---|
| C05, C06 | `+=`/`-=` compute the imaginary part from the already updated real part |
| C07 | complex division never reads the divisor's imaginary part |
| C12 | `/=` by a zero scalar goes on to divide after saturating |
| C26 | (proved as is) a negative exponent is cast to 2^64 + exp |
| C32, C59 | π wraps / 2π overflows on signed types with F = W-3 |
| C34, C78, C87 | wrap_phase, cos, to_cartesian never return for infinities and magnitudes above 2^(p+3) |
| C38 | sin and cos always panic on fixed types with fewer than 20 integer bits (9! does not fit) |
| C41 | atan2 is off by up to π/4-32/41 rad (0.28°), not the documented 0.028° |
| C43, C80 | atan2 divides by zero / returns NaN for tiny or huge operands (C80_nan_iff: exactly when), or is off by 45 degrees just below the overflow (C80_off) |
| C46 | niirf's documented error 5e-4 is exceeded with two iterations |
| C50-C52 | niirf panics on signed F = W-3 and on unsigned types, and is wrong there in release builds; with no fraction bits it returns 0 |
| C115 | (proved as is) niirf of the most negative number hangs in release builds, and so does the magnitude of some small numbers |
| C62 | `Display` of the smallest signed value panics (checked) or prints "--128" (wrapping) |
| C71 | niirf of an infinity never returns in a release build; in a debug build its counter overflows after 2^31 passes |
| C85 | magnitude of finite floats overflows to infinity or underflows to zero |
| C102 | polar numbers made from or scaled by negative reals have a negative magnitude |
| C105 | atan on fixed point overflows for large arguments |
| C119 | polynomial sine and cosine exceed one (by up to 3.6e-6) next to their maximum, on every type |
| C123 | on fixed point `z * conj z` may have imaginary part -1 ulp, and conj is not multiplicative |
| C124 | (proved as is) division of a fixed-point complex number by a small non-zero float panics with a division by zero |
| C125, C129 | complex multiplication on fixed point and floats is neither associative nor distributive |
| C132 | negative exponents give different results on 32-bit and 64-bit targets on integers wider than the pointers (overflow checks off) |
| C133 | on fixed point sin and atan2 are not odd and cos is not even: rounding towards minus infinity makes the two sides differ by a few units |
| C126 | `+=`, `-=`, `/=` by a complex number store the new real part before they compute the imaginary part, so a panic leaves a mixture; `/=` by a zero integer leaves the largest value in both parts |
| C120 | the square root steps down by 0.1 % where the argument crosses a boundary of the β table |
| C151 | polynomial sine (fixed point, floats) and arctangent (floats) of neighbouring numbers can be in the wrong order by a unit or two; on fixed point the sine is proved wrong by at most 9 units, on floats by 13 * 2^-p (arctangent 24 * 2^-p) |
| C159 | `sqrt(1)` is 1.00075 (f32, f64, I16F16) and `cos(0)` is 1.0000035 (1025/1024 with ten fraction bits) |
| C161 | the polynomial `atan` jumps by pi/2 - 64/41 = 0.0098 at 1 and at -1 (644 units on I16F16) |
| C162 | on I16F16 the magnitude of 3 is 2.9973, and `mixed_abs` of that is yet another number |
| C163 | on I16F16 the magnitude of 3 is less than 3, and the magnitude of 86680/65536 is larger than that of 86720/65536 |
| C165 | adding 1+2i, 3+4i, 5+6i to 0 with `+=` gives 9+15i: the imaginary part is always the sum of the real parts plus the last imaginary part |
| C168 | NaN is lost by `+=` (left imaginary part), `/` (divisor's imaginary part), the polar product with zero, division by the number zero and `atan2` beside a zero |
| C140 | `z / (t, 0)` is not `z / t` (`4 / (2 + 0i)` is `1 - i`) |

## Wrong programs

`seeded/LOG.jsonl` has one line per experiment (`tools/mutate.py` applies an edit to a scratch copy outside /verif and rebuilds;
`tools/mklog.py` writes the log). `tightened` names the theorems added or strengthened because the edit had survived.

When an edit breaks a helper lemma, the property theorems above it are not built, so the build does not tell whether their
statements became false. For those edits `lean/Verif/Tests/Instances.lean` evaluates instances of the property theorems on the edited model (run by `tools/falsify.py`);
`refuted` names the theorems whose statement is false of it. This is a test of the theorems only: no proof uses it.

## Plan per property

| id | model | proof |
|---|---|---|
| C01 | Cartesian ops on PInt, Fixed | case split on fit |
| C02 | mul_cartesian on PInt, ℝ | modular arithmetic / ring |
| C03 | mul_cartesian, all instances | commutativity law class |
| C04 | wrapping PInt | ring laws of ℤ modulo 2^W |
| C05, C06 | AddAssign/SubAssign | false of the code: exact characterisation, counterexample, `_partial` |
| C07 | Div | false of the code: characterisation, counterexample, `_partial` |
| C08 | Div, DivAssign, div_cartesian | generic |
| C09, C10 | scalar ops | generic, plus ℝ |
| C11 | scalar Div | PInt, Fixed |
| C12 | scalar DivAssign | false at 0: counterexample, `_partial` for non-zero |
| C13 | scalar Div with a converting scalar | PInt with an f64 scalar |
| C14, C15 | conj | ring on ℝ; range analysis on PInt, Fixed |
| C16, C17 | to_polar, to_cartesian on ℝ | Complex.arg / abs |
| C18 | to_cartesian, Fixed and ℝ, any sincos | uniqueness of the wrapped angle |
| C19 | mag family | generic; ℝ |
| C20-C22 | polar ops | ℝ; generic |
| C23, C24 | complex exp, powi on ℝ | Complex.exp, de Moivre |
| C25, C26 | powi on PInt | induction on the exponent |
| C27-C29 | sign, abs, is_positive/negative | PInt, Fixed |
| C30-C33 | wrap_phase | loop invariant + measure on Fixed, ℝ |
| C34 | wrap_phase on the float model | false: divergence for large values; `_partial` |
| C35-C37 | sin, cos on ℝ | Taylor remainder |
| C38 | sin on Fixed | false for types with < 20 integer bits |
| C39 | sin on Fixed | rounding-error propagation |
| C40-C42, C44 | atan2 on ℝ | monotonicity of the error function |
| C43 | atan2 on Fixed | false: underflowing denominator |
| C45-C48 | niirf on ℝ | polynomial bounds on 12 regions, contraction |
| C49-C52 | niirf on Fixed | loop measure, error propagation, counterexamples |
| C53 | dB functions on ℝ | log/exp |
| C54-C56 | conversions | PInt, Fixed, Float |
| C57-C59 | constants | Fixed |
| C60-C62 | formatting | string functions |
| C63 | num::Complex impls | generic |
| C64 | derived comparison | generic, linear order |
| C65 | atan2_poly on Fixed | error propagation from the exact algorithm |
| C66 | Polar `Display` | parsing function on the printed text |
| C67, C68 | conversions with floats | float rounding lemmas |
| C69 | max/min values | evaluation per type |
| C70, C71 | niirf on floats | interval table for the seed polynomial, two Newton steps; on infinities divergence (release) or counter overflow (debug) |
| C72-C74 | magnitude, product, powi on Fixed | floor-rounding error, induction |
| C75-C78 | wrap_phase, sin, cos on floats | loop invariant with accumulated error; divergence beyond 2^(p+3) |
| C79, C80 | atan2_poly on floats | relative error of each step; exact condition for NaN, witnesses |
| C81 | powi on floats | induction on the exponent |
| C82, C83 | complex arithmetic on floats | correct rounding per part |
| C84, C85 | magnitude on floats | relative error, `SqrtWithin`; overflow witnesses |
| C86-C90 | polar/Cartesian conversions on floats and Fixed | composition of the above with external accuracy hypotheses |
| C91-C95 | conjugation, symmetry, sign, constants, comparison on floats | case analysis on the IEEE value |
| C96 | floor, ceil on floats | exact integer rounding |
| C97 | delegation to libm/cordic | the right function with the right arguments, given its accuracy |
| C98-C100 | polar arithmetic, decibels, complex exp on floats and Fixed | error composition |
| C101, C102 | constructors, conversions between forms, readers | generic; magnitude of negative reals is negative (false property) |
| C103 | wrap_phase and cos of large angles on Fixed | number of turns bounded by the type |
| C104, C105 | exact return conditions of atan2_poly / atan on Fixed | fits-analysis of each intermediate |
| C106 | wrap_phase against negation and addition | uniqueness of the representative; loop simulation on floats |
| C107, C108 | real and complex powi on Fixed | rounded powers by recursion; composition with C72 and the external functions |
| C109, C110 | polar arithmetic on integers and Fixed, mixed products | exact outcome; composition with C72, C88 |
| C111 | methods mixed_niirf, mixed_atan2_poly, mixed_wrap_phase | they are the routines proved above |
| C112 | niirf with any number of iterations on Fixed | contraction of one rounded pass, induction |
| C113 | complex division on integers and Fixed | exact outcome by unfolding; truncation error of the quotient |
| C114 | complex division on floats | rounded numerators and denominator, error of the quotient; under- and overflow of the square |
| C115 | square root of the most negative Fixed, magnitudes that wrap round to it | loop invariant `x_ = MIN or 0`; sums modulo 2^W |
| C116, C117 | hexadecimal, octal, binary text of integers; Debug, Default | reader for the text; digits by `Nat.digits` |
| C118, C119, C121 | polynomial sine and arctangent monotone and bounded, on ℝ (C119 bounds on the machine types from C39, C76, C77) | sign of the derivative (alternating Taylor bounds); rational function |
| C120 | square root monotone, on ℝ (distant arguments on the machine types, from C49, C70) | quadratic in the argument for a fixed table row; C47 for distant arguments |
| C122 | sin² + cos² = 1 within the errors of C35-C39, C76, C77 | Cauchy-Schwarz |
| C123, C125 | conjugation, associativity, distributivity on Fixed | exact rounded products (C73), floor of sums and negatives |
| C124 | scalar operations on Fixed Cartesians | exact outcome; nearest rounding of the scalar |
| C126 | state after a panic | store-by-store operators in a state monad that keeps the state on a panic (`Model/Assign.lean`), shown equal to the value models |
| C127 | magnitude is a norm | C72, C73, C84, C83; normed field ℂ |
| C128 | text of floats and fixed point | the separating sign is the first one not in an exponent; component texts abstract (`Spec/PartText.lean`) |
| C129 | associativity, distributivity on floats | error of product and sum in the norm; exact on whole numbers (C83) |
| C130 | conversions and arithmetic preserve the order | rounding, truncation, saturation are monotone |
| C131 | laws of exponents on integers | powi is `fit` of the exact power (C25) |
| C132 | integer powers on other targets | inverse modulo 2^W (C26) |
| C133 | odd and even functions on Fixed | exact rounded powers (C35), floor of a negative |
| C134 | symmetries of the magnitude | equality of the programs |
| C135 | how long the routines run | budget of the model as pass count, Steps |
| C136 | the arctangent undoes sine and cosine | argument of a point near the unit circle; C35, C39, C40, C65, C76, C79 |
| C137 | square and square root nearly inverse | C45, C49, C70, rounding of the square |
| C138 | scaling by powers of two on floats | rounding commutes with powers of two in the normal range, sums need no condition; uniqueness of the normal form of NIIRF |
| C139 | release build = debug build unless the debug build panics | a simulation relation between two instances of the generic code, preserved by bind, branches and loops; one theorem for each generic function, one instance for each trait and number type |
| C140 | a real operand is a complex operand with imaginary part zero | laws of the number 0 in each type, then the generic operators; false of `/` |
| C141 | in a release build only divisions panic | `OnlyPanics E` is closed under bind, branches and loops; one theorem for each generic function, one instance for each trait and number type |
| C142 | nothing panics on floats | the same framework, with no reason allowed |
| C143 | subtraction undoes addition | reduction modulo 2^W; Sterbenz, sums are multiples of the least subnormal (`Lemmas/SumExact.lean`) |
| C144 | division by a real undoes the product | truncated quotients; two roundings |
| C145 | small angles, relative error | errors carried relative to the argument through the polynomial |
| C146 | period, shift, mirror | uniqueness of the wrapped angle; the two branches of the fold |
| C147 | scaling, mirror, turns of atan2 | the quotient depends on the direction only; case analysis over octants |
| C148 | laws of exponents, rounded | counting roundings through C74 and the relative-error calculus of C81 |
| C149 | laws of the decibel conversions | logarithm rules; doubling commutes with rounding on the grid of the format |
| C150 | atan on fixed point: monotone, odd | integer arithmetic: cross-multiplied quotients below one, above one, and across the seam (2 * 32/41 < pi/2) |
| C151 | sine and float arctangent nearly monotone | rate of the Taylor polynomial up to 1.5708, beyond π/2; error of the evaluation on both sides |
| C152 | polar multiplication: associative, conjugation, scaling | case split on zero magnitudes; congruences of `fit`; two roundings (`Rel.mul`) |
| C153 | polar and Cartesian products agree on machine numbers | C88/C86 for the conversions, one rounding of magnitude and angle, addition theorems |
| C154 | conjugation against conversions and exp on machine numbers | sign-change relation on floats (`Sgn`), wrapping of opposite angles (C106), floor of a negated product |
| C155 | laws of complex powers on fixed point | program equations for exponents 0 and 1, C108 for the exponents j, k, j+k and C73 for the product, C154's floor of a negated product |
| C156 | addition formulas of sine and cosine | accuracy of the six values (C35, C36, C39, C76, C77) and Cauchy-Schwarz on the errors |
| C157 | square root of 4^j x on fixed point | normal form unique up to its exponent, the iteration sees the mantissa only, denormalisation as one multiplication or truncated division |
| C158 | laws of the complex exponential on machine numbers | product of approximations (C100, C73/C83), exponential of a slightly moved argument |
| C159 | simple arguments: zero, one, the axes | early exits and untaken loops, sine of small fixed-point numbers (C145), concrete runs for the two values that are off |
| C160 | sine and cosine change no faster than their argument | derivative of the Taylor polynomial between -1 and 1, folding and wrapping as 1-Lipschitz maps, machine values against the exact polynomial of the exactly folded argument |
| C161 | the arctangent changes no faster than its argument | two rational pieces, each 1-Lipschitz, joined with the step at ±1 taken out; machine values against the exact polynomial; false at ±1 |
| C162 | magnitude of a real number | the correctly rounded root of a rounded square is the number itself; hypothesis `SqrtNearest` on the external root, shown satisfiable; fixed point: counterexample |
| C163 | magnitude against its parts | a nearest root is monotone, rounding is monotone, the axis case of C162; fixed point: error bound of C72 and a counterexample |
| C164 | adding up a list with `+`, `-` | the loop as a monadic fold (`Spec/Accumulate.lean`), the outcome of one step (C01) carried along the list; floats: relative error of each sum |
| C165 | adding up a list with `+=` | false; the same fold with the step the code really takes, in closed form |
| C166 | inner products | products first, then C164; errors of C73 and C83 added up; release builds by the simulation of C139 |
| C167 | phase accumulator | the loop as a fold (`Spec/PhaseAcc.lean`); C30, C33, C75 carried along the list, then C39 and C76 |
| C168 | NaN operands | case analysis of the float operations, then each routine with NaN in it; false where a branch or a wrong index drops an operand |
| C169 | multiplying up a list | the loop as a fold (`Spec/Multiply.lean`), Gaussian integers for words, C73 and C83 carried along the list as errors in the complex norm |
| C170 | a one-pole filter, Horner's rule | the loop as a fold (`Spec/Filter.lean`); an invariant (state within Y) and a geometric series of errors, from C73/C83 for the product and C01/C164 for the sum |
| C171 | a number turned step by step by polar factors | the loop as a fold (`Spec/Phasor.lean`); one step from C110 (fixed point) or C86 and C83 (floats), carried along the list as a relative and an absolute error |
| C172 | multiplying up a list of polar numbers | the loop as a fold (`Spec/PolarUp.lean`); magnitude and angle carried along separately, exact prefixes for words, C98 for the zero case, rounding errors as in C169 (magnitude) and C164 (angle) |
| C173 | sums of turned numbers (one bin of a Fourier transform) | the loop as a fold (`Spec/Spectrum.lean`); one product from C171, additions exact (fixed point) or good to a factor 1 + 2^-p in the complex norm |
| C174 | to polar form and back, n times | the loop by recursion (`Spec/ToAndFro.lean`); one trip from C89, C90, errors combined by a recurrence and its closed form `drift` |
| C175 | the angle between two numbers, `(z * w.conj()).arg()` | product error relative to the sizes, then how far the argument of a perturbed complex number moves (`Lemmas/ArgNear.lean`) |
| C176 | size and angle of the exponential | C100 for the parts, then `near_polar`: a number near E e^(ix) has nearly that size and angle; magnitude from C72, C84 |
| C177 | the Fourier transform, there and back | lists of bins (`Spec/Fourier.lean`) over C173 and C11 on exact reals; sums of roots of unity; shift, sum and convolution |
| C178 | infinite operands: which parts are infinite, zero or NaN, and with what sign |
| C179 | constants: `Lit` agrees with `Conv`; decimal constants by correct rounding |
