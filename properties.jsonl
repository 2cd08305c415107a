{"id": "C01", "title": "Complex addition and subtraction are exact", "statement": "For integer and fixed-point components, `a + b` and `a - b` on `Cartesian` values return the component-wise mathematical sum or difference whenever both components fit the type; otherwise a build with overflow checks panics, and a build without them returns the result reduced modulo 2^W. They never return anything else. The free functions `complex::add` and `complex::sub` give the same outcome as the operators.", "quantifier": "all component types (every width, every number of fraction bits, signed and unsigned, both overflow modes) and all operands", "why_tests_cant": "every pair of component values of the type; a test suite samples a handful of the 2^64 or more pairs", "anchors": ["src/complex/cartesian_impl.rs: impl_core_ops_add_sub_for_cartesian", "src/complex/ops.rs: add, sub"]}
{"id": "C02", "title": "Complex multiplication is the mathematical product", "statement": "`a * b` on `Cartesian` integers returns exactly (ac-bd) + (ad+bc)i whenever it returns in a build with overflow checks, and returns that value reduced modulo 2^W in a build without them; with exact real components it is multiplication of complex numbers.", "quantifier": "all widths, all operands", "why_tests_cant": "every pair of component values of the type; a test suite samples a handful of the 2^64 or more pairs", "anchors": ["src/complex/ops.rs: mul_cartesian", "src/complex/cartesian_impl.rs: Mul<Cartesian<T>>"]}
{"id": "C03", "title": "Complex multiplication is commutative, panics included", "statement": "`a * b` and `b * a` have the same outcome - the same value, or the same panic - for integer, fixed-point, floating-point and exact real components.", "quantifier": "all operand pairs of every component type", "why_tests_cant": "every pair of component values of the type; a test suite samples a handful of the 2^64 or more pairs", "anchors": ["src/complex/ops.rs: mul_cartesian"]}
{"id": "C04", "title": "Wrapping complex integers form a commutative ring", "statement": "In a build without overflow checks, `+` and `*` on `Cartesian` of a signed integer type are associative, `*` distributes over `+`, and `mixed_zero()` and `mixed_one()` are their identities.", "quantifier": "all triples of operands, all widths", "why_tests_cant": "triples of complex numbers: 2^192 cases already for i32", "anchors": ["src/complex/ops.rs: mul_cartesian", "src/complex/cartesian_impl.rs: Add, MixedZero, MixedOne"]}
{"id": "C05", "title": "`+=` leaves the value of `+` in the left operand", "statement": "After `a += b` on `Cartesian` values, `a` holds what `a + b` would have returned.", "quantifier": "all operands, all component types", "why_tests_cant": "every pair of component values of the type; a test suite samples a handful of the 2^64 or more pairs", "anchors": ["src/complex/cartesian_impl.rs: AddAssign in impl_core_ops_add_sub_for_cartesian"]}
{"id": "C06", "title": "`-=` leaves the value of `-` in the left operand", "statement": "After `a -= b` on `Cartesian` values, `a` holds what `a - b` would have returned.", "quantifier": "all operands, all component types", "why_tests_cant": "every pair of component values of the type; a test suite samples a handful of the 2^64 or more pairs", "anchors": ["src/complex/cartesian_impl.rs: SubAssign in impl_core_ops_add_sub_for_cartesian"]}
{"id": "C07", "title": "Complex division inverts multiplication", "statement": "For exact real components and every non-zero divisor w, `(z / w) * w` is z; the divisor's imaginary part takes part in the quotient.", "quantifier": "all z and all non-zero w", "why_tests_cant": "a division that ignores part of its divisor is still right on infinitely many inputs, e.g. when the parts are equal", "anchors": ["src/complex/cartesian_impl.rs: Div, DivAssign in impl_core_ops_div_cartesian_for_cartesian", "src/complex/ops.rs: div_cartesian"]}
{"id": "C08", "title": "All complex division entry points agree", "statement": "`z / w`, `z /= w` and `complex::div_cartesian(z, w)` have the same outcome (value or panic) for `Cartesian` and `num::Complex` divisors.", "quantifier": "all operands, all component types including floating point", "why_tests_cant": "every pair of component values of the type; a test suite samples a handful of the 2^64 or more pairs", "anchors": ["src/complex/cartesian_impl.rs: impl_core_ops_div_cartesian_for_cartesian", "src/complex/ops.rs: div_cartesian"]}
{"id": "C09", "title": "Scalar multiplication scales both parts", "statement": "`z * s` converts s to the component type once per part and multiplies both parts by it; with exact real components it is multiplication by the complex number s + 0i.", "quantifier": "all z, s and component types", "why_tests_cant": "every pair of component values of the type; a test suite samples a handful of the 2^64 or more pairs", "anchors": ["src/complex/cartesian_impl.rs: Mul<T1> for Cartesian<T2>"]}
{"id": "C10", "title": "Scalar addition and subtraction touch only the real part", "statement": "`z + s`, `z - s`, `z += s` and `z -= s` change only the real part, leave the imaginary part bit-for-bit unchanged, and the assigning forms agree with the plain ones.", "quantifier": "all z, s and component types", "why_tests_cant": "every pair of component values of the type; a test suite samples a handful of the 2^64 or more pairs", "anchors": ["src/complex/cartesian_impl.rs: Add<T1>, Sub<T1>, AddAssign<T1>, SubAssign<T1> for Cartesian<T2>"]}
{"id": "C11", "title": "Dividing a complex number by a real zero saturates instead of panicking", "statement": "`z / 0` on `Cartesian` returns the component type's maximum in both parts, for every z, without panicking; a non-zero divisor divides both parts by it.", "quantifier": "all z, all component types", "why_tests_cant": "every pair of component values of the type; a test suite samples a handful of the 2^64 or more pairs", "anchors": ["src/complex/cartesian_impl.rs: Div<T1> for Cartesian<T2>", "src/complex/ops.rs: div_scalar_cartesian"]}
{"id": "C12", "title": "`/=` by a real leaves the value of `/`", "statement": "After `z /= s` on a `Cartesian`, z holds what `z / s` would have returned, including for s = 0.", "quantifier": "all z, s and component types", "why_tests_cant": "every pair of component values of the type; a test suite samples a handful of the 2^64 or more pairs", "anchors": ["src/complex/cartesian_impl.rs: DivAssign<T1> for Cartesian<T2>"]}
{"id": "C13", "title": "Scalar division only panics for a reason visible in the operand", "statement": "For integer components, `z / s` with s converted from another numeric type panics with division by zero exactly when s is non-zero but converts to zero.", "quantifier": "all z and all s", "why_tests_cant": "needs every scalar, in particular fractional ones that truncate to zero", "anchors": ["src/complex/cartesian_impl.rs: Div<T1> for Cartesian<T2>"]}
{"id": "C14", "title": "Conjugation is an involutive ring automorphism", "statement": "conj(conj z) = z, conj(z*w) = conj z * conj w, conj(z+w) = conj z + conj w, and z * conj z has zero imaginary part and real part re^2+im^2, with exact real components; the first three also on signed integers, always without overflow checks and wherever both sides return with them. For integer and fixed-point components conj never changes the real part and fails only when the imaginary part is the type's minimum.", "quantifier": "all z, w", "why_tests_cant": "every pair of component values of the type; a test suite samples a handful of the 2^64 or more pairs", "anchors": ["src/complex/cartesian_impl.rs: Conj", "src/complex/polar_impl.rs: Conj"]}
{"id": "C15", "title": "Polar conjugation and Cartesian conjugation denote the same number", "statement": "With exact real components, converting a polar number to Cartesian form and conjugating equals conjugating (negating the angle) and then converting.", "quantifier": "all polar numbers", "why_tests_cant": "continuum of angles", "anchors": ["src/complex/polar_impl.rs: Conj", "src/complex/ops.rs: to_cartesian"]}
{"id": "C16", "title": "Cartesian to polar and back is the identity", "statement": "With exact real components, `z.to_polar().to_cartesian()` is z for every z, including 0 and the negative real axis; `to_polar` yields a non-negative magnitude and an angle in (-pi, pi].", "quantifier": "all complex numbers", "why_tests_cant": "continuum of inputs, with the branch cut as the corner case", "anchors": ["src/complex/ops.rs: to_polar, to_cartesian"]}
{"id": "C17", "title": "Polar to Cartesian and back is the identity on normalised numbers", "statement": "With exact real components, `p.to_cartesian().to_polar()` is p whenever the magnitude is positive and the angle lies in (-pi, pi]; in general it returns the normalised representation of the same number.", "quantifier": "all polar numbers, any finite angle", "why_tests_cant": "continuum of angles, any number of turns", "anchors": ["src/complex/ops.rs: to_polar, to_cartesian"]}
{"id": "C18", "title": "Converting to Cartesian form depends on the angle only modulo a turn", "statement": "Adding any whole number of turns (2 times the type's pi) to a polar number's angle does not change the result of `to_cartesian`, and the sine/cosine routine is only ever called with an angle in [-pi, pi); this holds for every fixed-point type with at least four integer bits and for exact reals, whatever the sine/cosine routine computes.", "quantifier": "all magnitudes, angles, turn counts, and all sine/cosine routines", "why_tests_cant": "unbounded number of turns and an arbitrary routine", "anchors": ["src/complex/ops.rs: to_cartesian", "src/trigonometry.rs: wrap_phase"]}
{"id": "C19", "title": "All magnitude entry points agree", "statement": "`mag()`, `abs()`, `complex::abs`, `mixed_abs().re` and `to_polar().mag` return the same value (or the same failure) for every Cartesian number, and with exact real components it is the Euclidean modulus.", "quantifier": "all z, all component types", "why_tests_cant": "every pair of component values of the type; a test suite samples a handful of the 2^64 or more pairs", "anchors": ["src/complex/cartesian_impl.rs: Mag, MixedAbs", "src/complex/ops.rs: abs, to_polar"]}
{"id": "C20", "title": "Polar multiplication denotes the complex product", "statement": "With exact real components, the Cartesian form of `p * q` is the product of the Cartesian forms, for polar*polar, polar*Cartesian, polar*real and Cartesian*polar (and its assigning form).", "quantifier": "all polar operands, also with negative magnitudes and unnormalised angles", "why_tests_cant": "continuum of angles", "anchors": ["src/complex/ops.rs: mul_polar", "src/complex/polar_impl.rs: Mul", "src/complex/cartesian_impl.rs: impl_core_ops_polar_for_cartesian"]}
{"id": "C21", "title": "A zero factor gives canonical polar zero", "statement": "If either magnitude is zero, polar multiplication returns magnitude 0 and angle 0 and never fails, for every component type.", "quantifier": "all operand pairs with a zero magnitude", "why_tests_cant": "every pair of component values of the type; a test suite samples a handful of the 2^64 or more pairs", "anchors": ["src/complex/ops.rs: mul_polar"]}
{"id": "C22", "title": "Polar division by a real is safe", "statement": "`p / s` never panics with division by zero: s = 0 gives the maximum magnitude with the angle unchanged, any other s divides the magnitude and keeps the angle.", "quantifier": "all p, s and component types", "why_tests_cant": "every pair of component values of the type; a test suite samples a handful of the 2^64 or more pairs", "anchors": ["src/complex/polar_impl.rs: Div<T> for Polar<T>"]}
{"id": "C23", "title": "The complex exponential is a homomorphism", "statement": "With exact real components `mixed_exp` of a Cartesian number is the complex exponential: exp(z + w) = exp z * exp w, exp 0 = 1, and |exp z| = e^(re z).", "quantifier": "all z, w", "why_tests_cant": "continuum of inputs", "anchors": ["src/complex/cartesian_impl.rs: MixedExp for Cartesian<T>"]}
{"id": "C24", "title": "Complex integer power", "statement": "With exact real components `complex::powi(z, n)` is z multiplied by itself n times, for every z and every n below 2^31, with powi(z,0)=1.", "quantifier": "all z, all n below 2^31", "why_tests_cant": "unbounded exponents", "anchors": ["src/complex/ops.rs: powi"]}
{"id": "C25", "title": "Integer power is the mathematical power or a reported overflow", "statement": "For integer types, `mixed_powi(b, n)` with n >= 0 returns b^n exactly when b^n fits the type; otherwise it panics (overflow checks on) or returns b^n modulo 2^W (off). In particular b^0 = 1 for all b including 0.", "quantifier": "all bases, all exponents, all widths", "why_tests_cant": "unbounded exponents", "anchors": ["src/trigonometry.rs: powi", "src/int_impl.rs: MixedPowi"]}
{"id": "C26", "title": "Integer power with a negative exponent", "statement": "`mixed_powi(b, n)` with n < 0 never yields a reciprocal: for integers with overflow checks it panics for every |b| >= 2, and for b in {0,1,-1} it returns 0, 1 and (-1)^n.", "quantifier": "all bases and all negative exponents", "why_tests_cant": "the loop runs about 2^64 times, so the case cannot even be executed", "anchors": ["src/int_impl.rs: MixedPowi", "src/fixed_impl.rs: MixedPowi", "src/trigonometry.rs: powi"]}
{"id": "C27", "title": "Sign times absolute value is the number", "statement": "`mixed_sign` returns 1 or -1, 1 for zero, is -1 exactly for values below zero, and sign(x) * |x| = x for every value whose absolute value is representable. On unsigned types it is always 1 and never fails.", "quantifier": "all values of every integer and fixed-point type", "why_tests_cant": "every pair of component values of the type; a test suite samples a handful of the 2^64 or more pairs", "anchors": ["src/trigonometry.rs: sign", "src/int_impl.rs", "src/fixed_impl.rs"]}
{"id": "C28", "title": "Absolute value", "statement": "`mixed_abs` on signed integers and fixed-point numbers returns the mathematical absolute value for every value except the type's minimum; for the minimum it panics with overflow checks and returns the minimum itself without. On unsigned types it is the identity.", "quantifier": "all values, all widths", "why_tests_cant": "every pair of component values of the type; a test suite samples a handful of the 2^64 or more pairs", "anchors": ["src/int_impl.rs: MixedAbs", "src/fixed_impl.rs: MixedAbs"]}
{"id": "C29", "title": "Positive and negative are exclusive", "statement": "`mixed_is_positive` and `mixed_is_negative` are never both true; on signed integer and fixed-point types both are false exactly for zero; on unsigned types every value including zero counts as positive.", "quantifier": "all values of all integer and fixed-point types", "why_tests_cant": "every pair of component values of the type; a test suite samples a handful of the 2^64 or more pairs", "anchors": ["src/int_impl.rs: MixedReal", "src/fixed_impl.rs: MixedReal"]}
{"id": "C30", "title": "Phase wrapping on fixed point terminates in range and on the same angle", "statement": "For every signed fixed-point type with at least four integer bits (sign included), `mixed_wrap_phase` terminates without panicking for every input, and returns the unique value in [-pi, pi) that differs from the input by a whole number of turns (pi and the turn being the type's own constants).", "quantifier": "all inputs of all such types, both overflow modes", "why_tests_cant": "2^64 inputs per type, and termination is not testable", "anchors": ["src/trigonometry.rs: wrap_phase", "src/fixed_impl.rs: MixedWrapPhase"]}
{"id": "C31", "title": "Phase wrapping is idempotent and the identity in range", "statement": "Wrapping an angle already in [-pi, pi) returns it unchanged; wrapping twice equals wrapping once.", "quantifier": "all angles of every signed fixed-point type with four integer bits, and all reals", "why_tests_cant": "every pair of component values of the type; a test suite samples a handful of the 2^64 or more pairs", "anchors": ["src/trigonometry.rs: wrap_phase"]}
{"id": "C32", "title": "Phase wrapping on the widest-fraction fixed-point types", "statement": "On every supported signed fixed-point type `mixed_wrap_phase` returns a wrapped angle.", "quantifier": "all inputs of all supported signed fixed-point types", "why_tests_cant": "every input of a type has to be considered", "anchors": ["src/trigonometry.rs: wrap_phase", "src/fixed_impl.rs"]}
{"id": "C33", "title": "Phase wrapping on exact reals", "statement": "With exact real arithmetic wrapping terminates for every real and returns the unique x in [-pi, pi) congruent to the input modulo 2 pi.", "quantifier": "all reals", "why_tests_cant": "continuum", "anchors": ["src/trigonometry.rs: wrap_phase"]}
{"id": "C34", "title": "Phase wrapping on floats terminates", "statement": "`mixed_wrap_phase` on f32 and f64 terminates for every input.", "quantifier": "all floating-point values including infinities and NaN", "why_tests_cant": "non-termination cannot be observed by a test", "anchors": ["src/trigonometry.rs: wrap_phase", "src/float_impl.rs: MixedWrapPhase"]}
{"id": "C35", "title": "Polynomial sine accuracy", "statement": "With exact real arithmetic `trigonometry::sin` differs from the true sine by less than 4e-6 for every x in [-pi, pi].", "quantifier": "all reals in [-pi, pi]", "why_tests_cant": "continuum", "anchors": ["src/trigonometry.rs: sin"]}
{"id": "C36", "title": "Polynomial cosine accuracy", "statement": "With exact real arithmetic `trigonometry::cos` differs from the true cosine by less than 4e-6 for every real x.", "quantifier": "all reals", "why_tests_cant": "continuum, unbounded", "anchors": ["src/trigonometry.rs: cos"]}
{"id": "C37", "title": "Polynomial sine is odd and folded symmetrically", "statement": "With exact real arithmetic sin(-x) = -sin(x) for all x, sin(pi - x) = sin(x) for x in [0, pi], and |sin x| <= 1 + 4e-6 on [-pi, pi].", "quantifier": "all reals", "why_tests_cant": "continuum", "anchors": ["src/trigonometry.rs: sin"]}
{"id": "C38", "title": "Polynomial sine and cosine on fixed point", "statement": "`trigonometry::sin` returns (does not panic) on every supported signed fixed-point type for angles in [-pi, pi].", "quantifier": "all inputs, all supported signed fixed-point types", "why_tests_cant": "needs all types and all inputs", "anchors": ["src/trigonometry.rs: sin, cos", "src/fixed_impl.rs"]}
{"id": "C39", "title": "Polynomial sine accuracy on fixed point", "statement": "On every signed fixed-point type with at least 20 integer bits, `trigonometry::sin` returns without panicking for every x in [-pi, pi] and is within 4e-6 plus a fixed number of units in the last place of the true sine.", "quantifier": "all inputs, all such types", "why_tests_cant": "2^64 inputs", "anchors": ["src/trigonometry.rs: sin", "src/fixed_impl.rs"]}
{"id": "C40", "title": "Polynomial atan2 accuracy", "statement": "With exact real arithmetic `mixed_atan2_poly(y, x)` differs from the true angle of (x, y) by at most 0.00492 rad (0.282 degrees) for every (x, y), and is exact on the axes.", "quantifier": "all points of the plane", "why_tests_cant": "continuum, eight octants", "anchors": ["src/trigonometry/atan.rs: atan2, atan_poly_1, atan_poly_2"]}
{"id": "C41", "title": "Documented atan2 accuracy of 0.028 degrees", "statement": "`mixed_atan2_poly` is accurate within 0.028 degrees everywhere (as documented).", "quantifier": "all points of the plane", "why_tests_cant": "continuum", "anchors": ["src/trigonometry/atan.rs: atan2"]}
{"id": "C42", "title": "Polynomial atan2 lands in the right quadrant", "statement": "With exact real arithmetic the result is in [-pi, pi], is zero exactly on the non-negative real axis, has the sign of y when y is non-zero, and is at most pi/2 in absolute value exactly when x >= 0 (for y non-zero).", "quantifier": "all points of the plane", "why_tests_cant": "continuum", "anchors": ["src/trigonometry/atan.rs: atan2"]}
{"id": "C43", "title": "Polynomial atan2 on fixed point does not panic", "statement": "`mixed_atan2_poly(y, x)` returns an angle for every pair of in-range fixed-point values.", "quantifier": "all pairs of fixed-point values", "why_tests_cant": "every pair of component values of the type; a test suite samples a handful of the 2^64 or more pairs", "anchors": ["src/trigonometry/atan.rs: atan2, atan_poly_1, atan_poly_2", "src/fixed_impl.rs"]}
{"id": "C44", "title": "Polynomial atan", "statement": "`trigonometry::atan::atan(x)` equals atan2(x, 1), is odd, and with exact real arithmetic is within 0.00492 of the true arctangent for all x.", "quantifier": "all reals", "why_tests_cant": "continuum", "anchors": ["src/trigonometry/atan.rs: atan"]}
{"id": "C45", "title": "Square root accuracy (exact arithmetic)", "statement": "With exact real arithmetic the NIIRF square root with two iterations has a relative error below 0.1% for every positive x, and returns 0 for 0.", "quantifier": "all non-negative reals", "why_tests_cant": "continuum over all magnitudes", "anchors": ["src/trigonometry/sqrt.rs: niirf"]}
{"id": "C46", "title": "Documented square root accuracy of 5e-4", "statement": "The NIIRF square root is accurate to 5e-4 with two iterations on the normalised range 0.25 <= x < 1 (as documented).", "quantifier": "all x in [0.25, 1)", "why_tests_cant": "continuum", "anchors": ["src/trigonometry/sqrt.rs: niirf"]}
{"id": "C47", "title": "Square root ignores the sign and scales exactly", "statement": "With exact real arithmetic niirf(-x) = niirf(x) and niirf(4x) = 2 niirf(x) for all x and all iteration counts.", "quantifier": "all reals, all iteration counts", "why_tests_cant": "continuum", "anchors": ["src/trigonometry/sqrt.rs: niirf"]}
{"id": "C48", "title": "More square root iterations converge", "statement": "With exact real arithmetic the error of niirf(x, n) shrinks geometrically in n and tends to 0, for every positive x.", "quantifier": "all positive reals, all iteration counts", "why_tests_cant": "limit statement", "anchors": ["src/trigonometry/sqrt.rs: niirf"]}
{"id": "C49", "title": "Square root on signed fixed point terminates and is accurate", "statement": "For every signed fixed-point type with at least four integer bits and at least 2 fraction bits, `mixed_sqrt` terminates without panicking for every positive x and is within a relative error of 0.1% plus 12 * 2^-F, plus four units in the last place (types of at least 8 bits).", "quantifier": "all positive inputs, all such types", "why_tests_cant": "2^64 inputs per type; termination", "anchors": ["src/trigonometry/sqrt.rs: niirf", "src/fixed_impl.rs: MixedSqrt"]}
{"id": "C50", "title": "Square root on every supported signed fixed-point type", "statement": "`mixed_sqrt` returns for every positive value of every supported signed fixed-point type.", "quantifier": "all positive inputs of all supported types", "why_tests_cant": "all types and inputs", "anchors": ["src/trigonometry/sqrt.rs: niirf", "src/fixed_impl.rs"]}
{"id": "C51", "title": "Square root on unsigned fixed point", "statement": "`mixed_sqrt` returns for every value of every supported unsigned fixed-point type.", "quantifier": "all inputs of all supported unsigned types", "why_tests_cant": "all types and inputs", "anchors": ["src/trigonometry/sqrt.rs: niirf", "src/fixed_impl.rs"]}
{"id": "C52", "title": "Square root with no fraction bits", "statement": "On fixed-point types without fraction bits, and on integers, the NIIRF square root returns a value close to the true root.", "quantifier": "all inputs", "why_tests_cant": "all inputs", "anchors": ["src/trigonometry/sqrt.rs: niirf", "src/fixed_impl.rs", "src/int_impl.rs"]}
{"id": "C53", "title": "Decibel conversions are mutually inverse", "statement": "With exact real arithmetic mixed_db2mag(mixed_mag2db x) = x and mixed_db2pow(mixed_pow2db x) = x for x > 0, and the reverse compositions are the identity for all reals; mag2db(x) = pow2db(x^2).", "quantifier": "all reals / all positive reals", "why_tests_cant": "continuum", "anchors": ["src/float_impl.rs: DbMag, DbPow"]}
{"id": "C54", "title": "Integer conversions preserve representable values", "statement": "`mixed_from_num`/`mixed_to_num` between integer types returns the same number whenever it is representable in the target and the value modulo 2^W otherwise; converting to a type that can represent the value and back is the identity.", "quantifier": "all values, all pairs of widths and signedness", "why_tests_cant": "all values of all 144 type pairs", "anchors": ["src/int_impl.rs: impl_mixed_num_conversion"]}
{"id": "C55", "title": "Fixed-point conversions from and to integers", "statement": "Converting an integer to fixed point is exact when it fits (panic or wrap otherwise), converting back returns the same integer, and fixed-point to integer rounds toward minus infinity.", "quantifier": "all values and all fixed-point types", "why_tests_cant": "all values of all types", "anchors": ["src/fixed_impl.rs: impl_mixed_num_conversion"]}
{"id": "C56", "title": "Cartesian conversions act component-wise", "statement": "Converting `Cartesian<T1>` to `Cartesian<T2>` converts each part separately; converting a real to Cartesian gives imaginary part zero, and converting a Cartesian to a real takes the real part, so real -> Cartesian -> real is the plain real conversion.", "quantifier": "all values, all type pairs", "why_tests_cant": "every pair of component values of the type; a test suite samples a handful of the 2^64 or more pairs", "anchors": ["src/complex/cartesian_impl.rs: MixedNumConversion<Cartesian<T1>>", "src/float_impl.rs: MixedNumConversion<Cartesian<$T2>>", "src/fixed_impl.rs"]}
{"id": "C57", "title": "Zero and one are identities", "statement": "Adding `mixed_zero()` or multiplying by `mixed_one()` returns the operand unchanged for every integer and every supported fixed-point value (and their Cartesian forms), without panicking.", "quantifier": "all values, all types", "why_tests_cant": "every pair of component values of the type; a test suite samples a handful of the 2^64 or more pairs", "anchors": ["src/int_impl.rs: MixedZero, MixedOne", "src/fixed_impl.rs", "src/complex/cartesian_impl.rs"]}
{"id": "C58", "title": "The type's pi constant", "statement": "`mixed_pi()` on every supported fixed-point type with at most 48 fraction bits is within half a unit in the last place plus 2^-51 of pi, and it never panics on any supported type.", "quantifier": "all supported types", "why_tests_cant": "a family of types", "anchors": ["src/fixed_impl.rs: MixedPi"]}
{"id": "C59", "title": "`mixed_tau` is available on every supported type", "statement": "`mixed_tau()` returns 2 pi (rounded to the type) on every supported fixed-point type.", "quantifier": "all supported types", "why_tests_cant": "a family of types", "anchors": ["src/fixed_impl.rs: MixedPi"]}
{"id": "C60", "title": "Display round trip", "statement": "The text of a `Cartesian` integer determines it: parsing `<re><sign><im>i` gives back the number (with one exception: without overflow checks a part equal to the type's minimum reads back as its negation), so two different numbers never print alike.", "quantifier": "all Cartesian integers", "why_tests_cant": "injectivity over an unbounded domain", "anchors": ["src/complex/cartesian_impl/num_complex_impl.rs: write_complex, Display"]}
{"id": "C61", "title": "Display layout", "statement": "For every component type and format flags the output is: '-' exactly if re < 0 ('+' if the plus flag is set and re is not negative), the alternate prefix, the text of |re|, '-' exactly if im < 0 else '+', the prefix again, the text of |im|, 'i'; with the std feature the whole is left-padded with spaces to the requested width and never truncated.", "quantifier": "all values and flags", "why_tests_cant": "all values times all flag combinations", "anchors": ["src/complex/cartesian_impl/num_complex_impl.rs: write_complex"]}
{"id": "C62", "title": "Display never fails on representable numbers", "statement": "Formatting a `Cartesian` of a signed integer type never panics.", "quantifier": "all values", "why_tests_cant": "all values", "anchors": ["src/complex/cartesian_impl/num_complex_impl.rs: write_complex"]}
{"id": "C63", "title": "Interoperation with num::Complex", "statement": "`+`, `-`, `/` and their assigning forms give the same outcome whether the right operand is a `Cartesian` or the `num::Complex` with the same parts.", "quantifier": "all operands, all component types", "why_tests_cant": "every pair of component values of the type; a test suite samples a handful of the 2^64 or more pairs", "anchors": ["src/complex/cartesian_impl.rs: num::Complex impls"]}
{"id": "C64", "title": "Comparison is equality of parts and lexicographic order", "statement": "Two Cartesian (or polar) numbers are equal exactly when both parts are equal, and they compare first by real part (magnitude), then by imaginary part (angle); for integer and fixed-point components this is a total order.", "quantifier": "all pairs/triples of values", "why_tests_cant": "every pair of component values of the type; a test suite samples a handful of the 2^64 or more pairs", "anchors": ["src/complex.rs: Cartesian, Polar (derive)"]}
{"id": "C65", "title": "Polynomial atan2 accuracy on fixed point", "statement": "On every supported signed fixed-point type, for points whose coordinates have squares below half the type's range and whose larger coordinate has a square of at least one unit in the last place, `mixed_atan2_poly` returns and is within 0.00492 rad plus (3 + 7/max(|x|,|y|)^2) units in the last place of the true angle; on the axes it is within one unit plus 2^-52.", "quantifier": "all such points, all signed types, both overflow modes", "why_tests_cant": "rounding errors over all inputs of a family of types", "anchors": ["src/trigonometry/atan.rs: atan2, atan_poly_1, atan_poly_2"]}
{"id": "C66", "title": "The text of a polar number determines it", "statement": "The text of a `Polar` integer is `<mag>∠<ang>` and reads back as the number, the type's minimum included, so different polar numbers never print alike; the same holds for every component type whose own texts are distinct and contain no angle sign.", "quantifier": "all polar numbers", "why_tests_cant": "injectivity over an unbounded domain", "anchors": ["src/complex/polar_impl.rs: Display"]}
{"id": "C67", "title": "Conversions between integers, floats and float widths", "statement": "An integer of at most p bits (24 for `f32`, 53 for `f64`) converts to a float exactly and back unchanged; larger ones are rounded to nearest, off by at most a factor 2^-p, and keep their order; only `u128` to `f32` can exceed the range, and gives infinity then. Float to integer drops the fraction and saturates at the type's limits, NaN gives 0, nothing panics. `f32` to `f64` and back is the identity, zeros' signs, infinities and NaN included.", "quantifier": "all values, all integer widths, both float widths", "why_tests_cant": "2^64 inputs; edge cases around the limits", "anchors": ["src/int_impl.rs: impl_mixed_num_conversion", "src/float_impl.rs: impl_mixed_num_conversion"]}
{"id": "C68", "title": "Conversions between fixed point and floats", "statement": "A fixed-point number of at most p bits converts to a float of the same value and back unchanged. A finite float converts to the nearest fixed-point number, halves to the even bit pattern (panic or wrap if it does not fit); NaN and infinities panic in every build.", "quantifier": "all values, all fixed-point types, both float widths", "why_tests_cant": "2^64 inputs per type", "anchors": ["src/fixed_impl.rs: impl_mixed_num_conversion"]}
{"id": "C69", "title": "Largest and smallest values", "statement": "`mixed_min_value()` and `mixed_max_value()` are values of the type that bound every (finite) value of it; for integers and fixed point the next value is not representable.", "quantifier": "all values of all types", "why_tests_cant": "all values", "anchors": ["src/int_impl.rs: MixedReal", "src/fixed_impl.rs: MixedReal", "src/float_impl.rs: MixedReal"]}
{"id": "C70", "title": "NIIRF square root accuracy on floats", "statement": "For every finite non-zero `f32` or `f64` `mixed_niirf` returns a positive finite float within relative error 9.96e-4 of the root of the magnitude; n iterations give 9.95e-4/10^(n-2) plus 1e-6; both zeros give +0.", "quantifier": "all finite floats, all iteration counts", "why_tests_cant": "2^64 inputs; rounding errors", "anchors": ["src/trigonometry/sqrt.rs: niirf", "src/float_impl/f32_impl.rs: mixed_niirf", "src/float_impl/f64_impl.rs: mixed_niirf"]}
{"id": "C71", "title": "The NIIRF square root terminates on every float", "statement": "`mixed_niirf` of any `f32` or `f64` returns.", "quantifier": "all floats", "why_tests_cant": "non-termination cannot be observed by a test", "anchors": ["src/trigonometry/sqrt.rs: niirf, normalize", "src/float_impl/f32_impl.rs: mixed_niirf", "src/float_impl/f64_impl.rs: mixed_niirf"]}
{"id": "C72", "title": "Magnitude of a fixed-point complex number", "statement": "On signed fixed point with at least 2 fraction and 3 integer bits, `mag()` panics (checks on) exactly when the sum of the two squares, each rounded down, is out of range; otherwise it returns and is within (1/1000 + 12 ulp)|z| + 4 ulp plus the smaller of sqrt(2 ulp) and 2 ulp/|z| of the true magnitude. If both squares are below one ulp it is 0.", "quantifier": "all values, both overflow modes", "why_tests_cant": "all pairs of 64-bit parts", "anchors": ["src/complex/cartesian_impl.rs: Mag::mag"]}
{"id": "C73", "title": "Complex multiplication on fixed point", "statement": "With overflow checks the product returns exactly when the four rounded-down products, the difference and the sum are in range, else panics; the real part is less than one ulp off the exact product, the imaginary part less than two ulp below it. Without checks the same results come reduced modulo 2^W.", "quantifier": "all operands of all fixed-point types", "why_tests_cant": "every pair of component values of the type; a test suite samples a handful of the 2^64 or more pairs", "anchors": ["src/complex/cartesian_impl.rs: Mul<Cartesian<T>>", "src/complex/ops.rs: mul_cartesian"]}
{"id": "C74", "title": "Integer powers on fixed point", "statement": "On a type that holds 1, `mixed_powi(n)` for n >= 1 of a number of magnitude at most 1 never panics, stays within [-1, 1] and is at most n-1 ulp off; `mixed_powi(0)` is 1.", "quantifier": "all such numbers, all exponents", "why_tests_cant": "all exponents up to 2^31", "anchors": ["src/trigonometry.rs: powi", "src/fixed_impl.rs: MixedPowi"]}
{"id": "C75", "title": "Phase wrapping on floats is accurate", "statement": "For every finite float with |x| <= 2^p/10 (p = 24 for `f32`, 53 for `f64`) `wrap_phase` returns x minus a whole number of turns of the real circle up to (|x|+4)^2/6 * 2^-p; for |x| <= 4.8 up to 13 * 2^-p, and the result is at most pi in size up to the rounding of pi.", "quantifier": "all finite floats in the range", "why_tests_cant": "rounding accumulated over an unbounded number of steps, over all inputs", "anchors": ["src/trigonometry.rs: wrap_phase"]}
{"id": "C76", "title": "Sine on floats is accurate", "statement": "`trigonometry::sin` of every `f32` or `f64` with |x| <= 4.712 is a finite float within 3.61e-6 + 13.4 * 2^-p of the sine (4.41e-6 for `f32`, 3.611e-6 for `f64`); NaN gives NaN.", "quantifier": "all floats in the range", "why_tests_cant": "2^62 inputs; rounding errors", "anchors": ["src/trigonometry.rs: sin"]}
{"id": "C77", "title": "Cosine on floats is accurate", "statement": "`trigonometry::cos` of every `f32` or `f64` with |x| <= 100000 is a finite float within 3.61e-6 + (|x|+12)^2/6 * 2^-p of the cosine: 5.9e-6 for `f32` with |x| <= 3.15, 3.62e-6 for `f64` with |x| <= 1000.", "quantifier": "all floats in the range", "why_tests_cant": "2^62 inputs; rounding errors", "anchors": ["src/trigonometry.rs: cos, wrap_phase, sin"]}
{"id": "C78", "title": "Cosine terminates on every float", "statement": "`trigonometry::cos` of any `f32` or `f64` returns.", "quantifier": "all floats", "why_tests_cant": "non-termination cannot be observed by a test", "anchors": ["src/trigonometry.rs: cos, wrap_phase"]}
{"id": "C79", "title": "Polynomial atan2 accuracy on floats", "statement": "For finite floats of which the larger in magnitude lies between 1e-18 and 9e18 (`f32`) or 1e-153 and 1e153 (`f64`), `trigonometry::atan::atan2` returns a finite float within pi/4 - 32/41 + 12 * 2^-p (0.00492) of the true angle of (x, y); `atan` likewise of the arctangent.", "quantifier": "all such pairs of floats", "why_tests_cant": "2^128 inputs; rounding errors", "anchors": ["src/trigonometry/atan.rs: atan2, atan, atan_poly_1, atan_poly_2"]}
{"id": "C80", "title": "Polynomial atan2 of finite floats is a number", "statement": "`trigonometry::atan::atan2` of two finite floats, not both zero, is never NaN.", "quantifier": "all pairs of finite floats", "why_tests_cant": "the failing inputs are far from those a test tries", "anchors": ["src/trigonometry/atan.rs: atan2, atan_poly_1, atan_poly_2"]}
{"id": "C81", "title": "Integer powers on floats", "statement": "`mixed_powi(n)` of a float has relative error at most (1+2^-p)^(n-1) - 1 for n >= 1 (2n-1 roundings for a negative exponent) while |x|^n stays in the normal range and n <= 2^(p-2); on whole numbers with |x|^n below 2^p it is exact; exponent 0 gives 1 for every float, NaN included, and exponent 1 gives x.", "quantifier": "all finite floats, all such exponents", "why_tests_cant": "rounding errors over all inputs and exponents", "anchors": ["src/float_impl.rs: MixedPowi"]}
{"id": "C82", "title": "Complex addition and scalar operations on floats are correctly rounded", "statement": "Each part of `z + w`, `z - w`, `z + t`, `z - t`, `z * t`, `z / t` on floats is the exact result of that part rounded to the nearest float, ties to even, or the infinity of its sign from the IEEE overflow threshold on; scalars are first converted by correct rounding, and `+`/`-` with a scalar leave the imaginary part alone.", "quantifier": "all finite operands", "why_tests_cant": "2^128 inputs", "anchors": ["src/complex/cartesian_impl.rs: Add, Sub, Mul, Div", "src/complex/ops.rs"]}
{"id": "C83", "title": "Complex multiplication on floats", "statement": "Without overflow of the partial products each part of `z * w` is finite and within (2*2^-p + 2^-2p) times the sum of the magnitudes of its two partial products, plus 2*2^emin, of the exact value; on whole numbers with partial products below 2^p it is exact.", "quantifier": "all finite operands", "why_tests_cant": "2^128 inputs; rounding errors", "anchors": ["src/complex/cartesian_impl.rs: Mul<Cartesian<T>>", "src/complex/ops.rs: mul_cartesian"]}
{"id": "C84", "title": "Magnitude of a complex number on floats", "statement": "If the external square root is within relative error e, `mag()` of finite parts whose squares stay within half the range, the larger square being normal, is finite and within (2.1*2^-p + 1.01 e)|z| of the true magnitude.", "quantifier": "all such values, all square roots meeting the bound", "why_tests_cant": "2^128 inputs; rounding errors", "anchors": ["src/complex/cartesian_impl.rs: Mag::mag"]}
{"id": "C85", "title": "Magnitude of finite floats is finite and positive", "statement": "`mag()` of a non-zero complex number with finite float parts, whose magnitude is itself a float, is finite and not zero.", "quantifier": "all finite non-zero values", "why_tests_cant": "the failing inputs are far from those a test tries", "anchors": ["src/complex/cartesian_impl.rs: Mag::mag"]}
{"id": "C86", "title": "Polar to Cartesian on floats", "statement": "If the external sincos is within e on [-4, 4], `to_cartesian` with |angle| <= 2^p/10 returns finite parts within |mag|(e + ((|ang|+4)^2/6 + 2) 2^-p) + 2^emin of mag*cos(ang) and mag*sin(ang).", "quantifier": "all such polar numbers, all sincos meeting the bound", "why_tests_cant": "rounding accumulated over an unbounded number of steps", "anchors": ["src/complex/ops.rs: to_cartesian", "src/trigonometry.rs: wrap_phase"]}
{"id": "C87", "title": "Polar to Cartesian terminates on every float", "statement": "`to_cartesian` of a polar number with any float angle returns.", "quantifier": "all float angles", "why_tests_cant": "non-termination cannot be observed by a test", "anchors": ["src/complex/ops.rs: to_cartesian", "src/trigonometry.rs: wrap_phase"]}
{"id": "C88", "title": "Polar to Cartesian on fixed point", "statement": "If the external CORDIC sincos is within e between minus and plus the type's pi, `to_cartesian` of a magnitude with (1+e)|mag| + ulp in range never panics and each part is within |mag|(e + (|ang|/5 + 1/2)(ulp + 2^-51)) + ulp of mag*cos(ang), mag*sin(ang).", "quantifier": "all such polar numbers, all signed types with 3 integer bits, both overflow modes", "why_tests_cant": "all pairs of 64-bit parts", "anchors": ["src/complex/ops.rs: to_cartesian", "src/trigonometry.rs: wrap_phase"]}
{"id": "C89", "title": "Cartesian to polar and back on floats", "statement": "With external root, arctangent and sincos of accuracy s, d, e, converting to polar and back changes neither part by more than (d + 1.02 e + 1.01 s + 16*2^-p)|z| + 2^emin, while the squares neither overflow nor underflow.", "quantifier": "all such values, all external functions meeting the bounds", "why_tests_cant": "composition of rounding errors", "anchors": ["src/complex/ops.rs: to_polar, to_cartesian"]}
{"id": "C90", "title": "Cartesian to polar and back on fixed point", "statement": "With CORDIC arctangent and sincos of accuracy d, e and N = |z|, E the magnitude error bound of C72, converting to polar and back never panics and changes neither part by more than (N+E)(e + 1.3(ulp + 2^-51)) + ulp + E + N d.", "quantifier": "all values with squares and result in range, both overflow modes, all external functions meeting the bounds", "why_tests_cant": "composition of rounding errors", "anchors": ["src/complex/ops.rs: to_polar, to_cartesian"]}
{"id": "C91", "title": "Conjugation on floats", "statement": "`conj` flips the sign bit of the imaginary part only and is its own inverse. The conjugate of a sum or product is the sum or product of the conjugates, bit for bit apart from the signs of zeros, NaN, infinities and overflow included. z * conj z has the real part that `mag` takes the root of and, unless re*im overflows, imaginary part zero.", "quantifier": "all float values", "why_tests_cant": "2^128 inputs, rounding and special values included", "anchors": ["src/complex/cartesian_impl.rs: conj, Mul, Add", "src/complex/ops.rs"]}
{"id": "C92", "title": "Odd and even functions on floats", "statement": "Apart from the signs of zeros, bit for bit: `trigonometry::sin(-x)` is `-sin(x)`; `mixed_powi` of -x and x agree up to the sign the exponent's parity prescribes; `atan(-x)` is `-atan(x)`; `atan2(-y, x)` is `-atan2(y, x)` for y neither zero nor NaN, while `atan2(-0, x)` and `atan2(0, x)` are both pi for negative x; `niirf(-x)` runs exactly like `niirf(x)`.", "quantifier": "all floats, NaN, infinities and every magnitude included", "why_tests_cant": "every float must be tried with its negation", "anchors": ["src/trigonometry.rs: sin", "src/float_impl.rs: MixedPowi", "src/trigonometry/atan.rs: atan, atan2", "src/trigonometry/sqrt.rs: niirf"]}
{"id": "C93", "title": "Sign and absolute value on floats", "statement": "`mixed_sign` is -1 exactly for floats below zero, else 1 (zeros of either sign and NaN included); `mixed_abs` clears the sign and nothing else; sign times absolute value gives back every float except that zero may lose its sign; `mixed_is_negative` disagrees with `mixed_sign` exactly at -0. Negation flips the sign flag of everything but NaN and undoes itself.", "quantifier": "all floats", "why_tests_cant": "special values are easily missed", "anchors": ["src/trigonometry.rs: sign", "src/float_impl.rs: MixedAbs, MixedReal"]}
{"id": "C94", "title": "Constants and identities on floats", "statement": "`mixed_pi` is the `f32`/`f64` nearest to pi; `mixed_tau` is exactly twice it and nearest to 2 pi. Zero and one are identities for + - * / on all floats, and `+`, `*` commute on floats and complex numbers. The complex zero and one are identities for finite parts; with an infinite part one is not (a part becomes NaN).", "quantifier": "all floats; all floats as competitors of the constants", "why_tests_cant": "quantifies over all floats of the type", "anchors": ["src/float_impl.rs: MixedPi, MixedZero, MixedOne", "src/complex/cartesian_impl.rs: MixedZero, MixedOne, Mul"]}
{"id": "C95", "title": "Comparison on floats", "statement": "`<`, `<=`, `==` and `partial_cmp` on floats are those of the extended reals (so -0 == 0), NaN is incomparable with everything; complex numbers compare lexicographically by value, and a NaN part makes them unequal and, unless the real parts already differ, incomparable.", "quantifier": "all pairs of floats and of complex numbers", "why_tests_cant": "2^128 pairs, special values included", "anchors": ["src/complex.rs: derive(PartialEq, PartialOrd)", "src/float_impl.rs"]}
{"id": "C96", "title": "Floor and ceiling on floats", "statement": "`mixed_floor` of a finite float is the largest whole number not above it and `mixed_ceil` the smallest not below it, both representable; whole numbers, NaN and infinities are unchanged; `ceil(-x)` is `-floor(x)` bit for bit.", "quantifier": "all floats", "why_tests_cant": "2^64 inputs", "anchors": ["src/float_impl/f32_impl.rs: MixedFloor, MixedCeil", "src/float_impl/f64_impl.rs: MixedFloor, MixedCeil"]}
{"id": "C97", "title": "Methods that delegate to libm and cordic", "statement": "If every external function is within d of the real function of its name, so is every method that calls it: sin, cos, sincos, tan, asin, acos, atan, atan2, sinh .. atanh, sqrt, cbrt, exp, exp2, exp10, pow, log, log2, log10 on floats, sin, cos, sincos, asin, acos, atan, atan2, exp on signed fixed point, with the arguments of atan2 and pow in the documented order. Consequently conversion to polar and back on floats is accurate to (6d + 17*2^-p)|z| + 2^emin.", "quantifier": "all external functions, all arguments in the domain", "why_tests_cant": "tests compare a few values against the same library", "anchors": ["src/float_impl/f32_impl.rs", "src/float_impl/f64_impl.rs", "src/fixed_impl.rs"]}
{"id": "C98", "title": "Arithmetic with polar numbers on floats", "statement": "The product of two polar numbers has the correctly rounded product of the magnitudes and sum of the angles; it is (0, 0) as soon as one magnitude is zero, even against NaN or infinity. Scaling rounds the magnitude once and keeps the angle, division by zero gives the largest finite magnitude. `conj` negates the angle exactly. The mixed products Cartesian*Polar and Polar*Cartesian are the product of the numbers they stand for, within explicit bounds.", "quantifier": "all finite floats (the zero rule: all floats)", "why_tests_cant": "2^128 inputs, composed rounding errors", "anchors": ["src/complex/ops.rs: mul_polar", "src/complex/polar_impl.rs: Mul, Div, Conj", "src/complex/cartesian_impl.rs: Mul<Polar>, MulAssign<Polar>"]}
{"id": "C99", "title": "Decibel conversions on floats", "statement": "With libm within d, `mag2db`/`pow2db` of every positive float is 20/10 times its decimal logarithm within (d + 2*2^-p) relative error, `db2mag`/`db2pow` of x is 10^(x/20) / 10^(x/10) within d + (|x|/6 + 1)*2^-p / d + (|x|/3 + 1)*2^-p relative error unless it overflows, and converting to decibel and back gives x up to d + 3.1 (d + 4*2^-p)(|log10 x| + 1) relative error; a few of the least subnormal are added to each bound.", "quantifier": "all positive floats (from decibel: |x| up to 2^p/4; and back: 4x finite and (d + 4*2^-p)(|log10 x| + 1) at most 1/28), all external functions meeting the bounds", "why_tests_cant": "error amplification of the exponential over the whole range", "anchors": ["src/float_impl.rs: DbMag, DbPow"]}
{"id": "C100", "title": "Complex exponential on floats and fixed point", "statement": "With the external functions within d, `mixed_exp` of a complex number is the complex exponential: on floats each part within (2.5 d + 2*2^-p) e^re + 2*2^emin unless e^re overflows, on signed fixed point (imaginary part within [-4, 4]) without panic and each part within d(e^re + 1 + d) + ulp, as long as the result fits.", "quantifier": "all such values, all external functions meeting the bounds", "why_tests_cant": "all pairs of parts, composed errors", "anchors": ["src/complex/cartesian_impl.rs: MixedExp"]}
{"id": "C101", "title": "Constructors, conversions between forms, and readers", "statement": "`to_cartesian` of a Cartesian and `to_polar` of a polar number are the identity; `new`, `new_from_cartesian`, `new_from_polar` store their arguments when they match the form and convert when they do not; `mag`, `abs`, `arg`, `ang` of a Cartesian number are what the same readers give on its polar form, and with exact reals they are absolute value and argument (on polar numbers: for positive magnitude and angle in (-pi, pi]).", "quantifier": "all component types; all reals", "why_tests_cant": "the entry points must agree for every component type", "anchors": ["src/complex/cartesian_impl.rs: NewFromCartesian, NewFromPolar, ToCartesian, ToPolar, Arg", "src/complex/polar_impl.rs: the same"]}
{"id": "C102", "title": "Magnitude of a polar number", "statement": "`mag`, `abs` and `mixed_abs` of a polar number give the absolute value of the complex number it stands for.", "quantifier": "all polar numbers", "why_tests_cant": "a polar number with negative magnitude is easily overlooked", "anchors": ["src/complex/polar_impl.rs: Mag, MixedAbs, MixedComplexConversion"]}
{"id": "C103", "title": "Phase wrapping and cosine of large angles on fixed point", "statement": "For every angle of a signed type with at least 4 integer bits the wrapped angle is at most pi in size up to the rounding of pi and within (|x|/6 + 2/3) ulp of the angle modulo the real 2 pi; with at least 20 integer bits the cosine of every angle to which pi/2 can be added is within 4e-6 + 9 ulp + |x|/6 ulp of the true cosine, and with overflow checks it panics exactly for the other angles.", "quantifier": "all angles, all such types, both overflow modes", "why_tests_cant": "error accumulates with the number of turns", "anchors": ["src/trigonometry.rs: wrap_phase, cos"]}
{"id": "C104", "title": "When polynomial atan2 on fixed point returns", "statement": "With overflow checks `atan2(y, x)` returns exactly if neither operand is the minimum and one is zero or the larger square is at least one ulp and (larger^2 + 0.28125 smaller^2) is representable; it panics for division by zero exactly if both are non-zero with squares below one ulp, otherwise for overflow. Where it returns (away from the axes, either overflow mode) it is within 0.00492 + (3 + 7/larger^2) ulp of the true angle.", "quantifier": "all pairs of operands, all signed types with at least 3 integer bits", "why_tests_cant": "the boundary depends on both operands and the type", "anchors": ["src/trigonometry/atan.rs: atan2"]}
{"id": "C105", "title": "Polynomial atan on fixed point returns for every number", "statement": "With overflow checks `atan(x)` returns for every x of a signed fixed-point type, within 0.00492 + 10 ulp of the arctangent.", "quantifier": "all numbers, all signed types with at least 3 integer bits", "why_tests_cant": "the square of x is formed on the way", "anchors": ["src/trigonometry/atan.rs: atan"]}
{"id": "C106", "title": "Phase wrapping against negation and addition", "statement": "Opposite angles wrap to opposite values, except that odd multiples of pi wrap to -pi from both sides; wrapping a summand first does not change the wrapped sum. On floats the first holds up to the sign of zero, and the loops run forever for -x exactly if they do for x.", "quantifier": "all angles of signed fixed-point types with 4 integer bits, all reals; negation also for all floats", "why_tests_cant": "both sides of the interval must agree for every angle", "anchors": ["src/trigonometry.rs: wrap_phase"]}
{"id": "C107", "title": "Integer powers on fixed point for any base", "statement": "`mixed_powi(n)` is the n-fold product rounded down at every step: it returns the last rounded power if all of them are representable, otherwise it panics with overflow checks on; with |x| <= M, M >= 1, the result is within (n-1) M^(n-1) ulp of x^n.", "quantifier": "all bases, all exponents from 1 to i32::MAX, all types, both overflow modes", "why_tests_cant": "error grows with the exponent", "anchors": ["src/fixed_impl.rs: MixedPowi", "src/trigonometry.rs: powi"]}
{"id": "C108", "title": "Complex integer powers on fixed point", "statement": "With CORDIC arctangent and sincos of accuracy d, e, `powi(z, n)` never panics and is within |z|^n (e + n d) + D(1+e) + ulp of z^n in each part, D the error of the power of the magnitude, as long as n times the angle stays in the range of sincos and the magnitude fits; with overflow checks an exponent outside the type's range panics even if z^n is representable.", "quantifier": "all such numbers and exponents, both overflow modes, all external functions meeting the bounds", "why_tests_cant": "composition of rounding errors", "anchors": ["src/complex/ops.rs: powi"]}
{"id": "C109", "title": "Arithmetic of polar numbers on integers and fixed point", "statement": "The product of polar numbers with non-zero magnitudes has the (rounded down) product of the magnitudes and the sum of the angles and overflows exactly if one of them does; scaling multiplies the magnitude and keeps the angle; multiplication commutes for every component type, `mixed_one` is its identity on non-zero magnitudes and `mixed_zero` absorbs.", "quantifier": "all polar numbers, all integer and fixed-point types, both overflow modes", "why_tests_cant": "all pairs of values, overflow included", "anchors": ["src/complex/polar_impl.rs: Mul, MixedZero, MixedOne", "src/complex/ops.rs: mul_polar"]}
{"id": "C110", "title": "Products of Cartesian and polar numbers on fixed point", "statement": "With CORDIC sincos and arctangent of accuracy e, d: Cartesian*Polar and Cartesian*=Polar never panic and each part is within (|re|+|im|) B + 2 ulp of the complex product, B the error bound of C88; Polar*Cartesian never panics, its magnitude is within |mag| E + ulp of the product of the magnitudes, E the error bound of C72, and its angle within d of the sum of the angles, as long as the results fit.", "quantifier": "all such values, both overflow modes, all external functions meeting the bounds", "why_tests_cant": "composition of rounding errors", "anchors": ["src/complex/cartesian_impl.rs: Mul<Polar>, MulAssign<Polar>", "src/complex/polar_impl.rs: Mul<Cartesian>"]}
{"id": "C111", "title": "The methods mixed_niirf, mixed_atan2_poly and mixed_wrap_phase", "statement": "`x.mixed_niirf()` is the square root of |x| within the bounds of C49/C70, `y.mixed_atan2_poly(x)` the angle of x + iy (in this order) within those of C65/C79, `x.mixed_wrap_phase()` differs from x by whole turns within those of C30/C75.", "quantifier": "all numbers in the ranges of those properties, fixed point and floats", "why_tests_cant": "argument order is invisible on symmetric samples", "anchors": ["src/fixed_impl.rs: MixedSqrt, MixedAtan, MixedWrapPhase", "src/float_impl.rs: MixedWrapPhase"]}
{"id": "C112", "title": "NIIRF square root with any number of iterations on fixed point", "statement": "`niirf(x, n)` returns for every x of a signed type with at least 8 fraction and 3 integer bits except the minimum; with n >= 2 it is within (9.96e-4 * 0.105^(n-2) + 4.5 ulp) of the root of |x|, relatively, plus 1.625 ulp; with n <= 1 within 4.17% + 5 ulp, plus 1.75 ulp; zero gives zero.", "quantifier": "all values, all iteration counts, all such types of at most 128 bits, both overflow modes", "why_tests_cant": "convergence for every argument and count", "anchors": ["src/trigonometry/sqrt.rs: niirf"]}
{"id": "C113", "title": "Complex division on integers and fixed point, exactly", "statement": "`z / w` with c the real part of w: integers with overflow checks give ((a+b) quot 2c, (b-a) quot 2c), panic with a division by zero if c = 0 and with overflow exactly if an intermediate product or sum does; without checks numerators and denominator are reduced modulo 2^W first and the division panics exactly if 2^W divides 2c^2. On fixed point the three intermediate values are rounded down, the quotient is truncated, a non-zero c with c^2 below one ulp panics, and the result is within the stated bound of the quotient by c + ci.", "quantifier": "all values, all integer and fixed-point types in both overflow modes (the error bound with overflow checks)", "why_tests_cant": "panics depend on rounded squares", "anchors": ["src/complex/cartesian_impl.rs: Div"]}
{"id": "C114", "title": "Complex division on floats", "statement": "`z / w` with c the real part of w: if c^2 is normal and nothing overflows, both parts are within (6.5/2^p) (|a|+|b|)/(2|c|) + 1.1 2^emin/c^2 + 2^emin of the quotient by c + ci; if c = 0 both parts are NaN; if c^2 underflows no part is finite; if c^2 overflows each part is zero or NaN.", "quantifier": "all finite dividends and divisors, every format as wide as f32", "why_tests_cant": "under- and overflow of the square", "anchors": ["src/complex/cartesian_impl.rs: Div"]}
{"id": "C115", "title": "The most negative number and magnitudes that wrap round to it", "statement": "On every signed fixed-point type the square root of the most negative number panics with overflow checks and never returns without them, whatever the iteration count. Without overflow checks mag, abs, mixed_abs, to_polar and powi of a complex number never return if the rounded squares of its parts add up to the first number above the range, modulo the range; every type has such a number whose parts are far inside the range. On types with at least four integer bits every other square root and magnitude returns.", "quantifier": "all values of all signed types, all iteration counts", "why_tests_cant": "needs a release build and one exact sum; the test would hang", "anchors": ["src/trigonometry/sqrt.rs: niirf", "src/complex/cartesian_impl.rs: mag", "src/complex/ops.rs: to_polar, powi"]}
{"id": "C116", "title": "Hexadecimal, octal and binary text", "statement": "Under `{:x}`, `{:X}`, `{:o}` and `{:b}`, with any sign, alternate, width and precision flags, whatever is printed for a complex integer reads back in base 16, 8 or 2 as that number, the smallest value included, with the prefix `0x`, `0o` or `0b` under the alternate flag and capital letters exactly under `{:X}`; without overflow checks every number is printed, with them every number without a part of the smallest value; different numbers never print alike.", "quantifier": "all integer types in both overflow modes, all flags, with and without `std`", "why_tests_cant": "all flags times all values", "anchors": ["src/complex/cartesian_impl/num_complex_impl.rs: write_complex, LowerHex, UpperHex, Octal, Binary"]}
{"id": "C117", "title": "Derived Debug and Default", "statement": "`{:?}` and `{:#?}` of a complex number show both parts under their names, and determine the number if the texts of the parts do and contain no comma; the default value is the zero of the type.", "quantifier": "both forms, every component type; integers without a hypothesis on the texts", "why_tests_cant": "all values", "anchors": ["src/complex.rs: derive(Debug, Default)"]}
{"id": "C118", "title": "Polynomial sine rises and falls where the sine does", "statement": "In exact arithmetic `sin` is strictly increasing on [-pi/2, pi/2] and strictly decreasing on the rest of the turn, [-pi, -pi/2] and [pi/2, pi].", "quantifier": "all real angles of one turn", "why_tests_cant": "strictness between all pairs of arguments", "anchors": ["src/trigonometry.rs: sin"]}
{"id": "C119", "title": "Polynomial sine and cosine stay within one", "statement": "`sin(x)` and `cos(x)` are at most one in absolute value.", "quantifier": "all real angles of one turn; floats and fixed point", "why_tests_cant": "the excess is a few parts in a million, at the turning point only", "anchors": ["src/trigonometry.rs: sin, cos"]}
{"id": "C120", "title": "Square root is monotone", "statement": "If 0 < x < x' then `niirf(x, 2) <= niirf(x', 2)`.", "quantifier": "all positive reals; floats and fixed point", "why_tests_cant": "fails only next to the boundaries of the correction table", "anchors": ["src/trigonometry/sqrt.rs: niirf, beta"]}
{"id": "C121", "title": "Polynomial arctangent is monotone and stays within a quarter turn", "statement": "In exact arithmetic `atan` is strictly increasing and its values lie strictly between -pi/2 and pi/2.", "quantifier": "all reals", "why_tests_cant": "strictness across the seam at one", "anchors": ["src/trigonometry/atan.rs: atan"]}
{"id": "C122", "title": "Sine and cosine lie on the unit circle", "statement": "The squares of the computed `sin(x)` and `cos(x)` add up to one within 1.14e-5 (exact arithmetic), 1.68e-5 (f32), 1.03e-5 (f64), 1.14e-5 plus 26 ulp and 163 squared ulp (signed fixed point with at least 20 integer bits), on a whole turn.", "quantifier": "all angles of one turn", "why_tests_cant": "all angles, two separately rounded results", "anchors": ["src/trigonometry.rs: sin, cos"]}
{"id": "C123", "title": "Conjugation against multiplication on fixed point", "statement": "`z * conj(z)` is real and `conj(z * w) = conj(z) * conj(w)` on integers and fixed point; with overflow checks the first returns exactly if the sum of the squares is representable.", "quantifier": "all values of all signed integer and fixed-point types with overflow checks", "why_tests_cant": "rounding down is not symmetric under negation; shows in the last bit only", "anchors": ["src/complex/cartesian_impl.rs: Conj, Mul", "src/complex/ops.rs: mul_cartesian"]}
{"id": "C124", "title": "Scalar operations on fixed-point complex numbers", "statement": "With an integer the component type can hold, `z*n` is exact, `z/n` truncates the exact quotient, `z+n` and `z-n` change the real part only, with an overflow exactly if a result does not fit; with any other integer all four panic (overflow checks on), and without checks division panics with a division by zero exactly if n is zero modulo the range. A float factor is rounded to the type first, which bounds the error; a finite float divisor panics with a division by zero exactly if it is non-zero and at most half an ulp.", "quantifier": "all values, all fixed-point types, all integer types and float formats", "why_tests_cant": "panics depend on the rounded operand", "anchors": ["src/complex/cartesian_impl.rs: Mul<T1>, Div<T1>, Add<T1>, Sub<T1>", "src/fixed_impl.rs: MixedNumConversion"]}
{"id": "C125", "title": "Associativity and distributivity on fixed point", "statement": "`z*(w+v) = z*w + z*v` and `(z*w)*v = z*(w*v)` where both sides return.", "quantifier": "all triples of values, all fixed-point types with overflow checks", "why_tests_cant": "all triples", "anchors": ["src/complex/cartesian_impl.rs: Mul, Add", "src/complex/ops.rs: mul_cartesian"]}
{"id": "C126", "title": "A panic in an assigning operator leaves the number as it was", "statement": "If `z += w`, `z -= w`, `z /= w` (w complex or scalar) or `z *= w` (w polar) panics, z still has its old value.", "quantifier": "all numbers and operands for which the operator panics, every component type", "why_tests_cant": "a value seen only after the panic has been caught", "anchors": ["src/complex/cartesian_impl.rs: AddAssign, SubAssign, MulAssign, DivAssign"]}
{"id": "C127", "title": "The magnitude is a norm", "statement": "mag(z*w) = mag(z) mag(w), mag(z+w) <= mag(z) + mag(w), and mag(z) = 0 only for z = 0, in exact arithmetic; on fixed point and floats up to the errors of the magnitudes (C72, C84) and of the sum and product (C73, C82, C83); mag does not change, not even in the last bit or in whether it panics, when a part changes its sign or the parts change places.", "quantifier": "all numbers whose squares fit, all signed fixed-point types, all float formats as wide as f32; the symmetries for all numbers", "why_tests_cant": "all pairs of values", "anchors": ["src/complex/cartesian_impl.rs: mag, Mul, Add"]}
{"id": "C128", "title": "The text of a complex float or fixed-point number determines it", "statement": "Under `{}`, `{:e}`, `{:E}` without precision, with any width and sign flags, every complex float is printed (infinities and NaN included) and different ones differently, even those that differ in the sign of a zero; the same on fixed point for numbers without a part of the smallest value, which panics if overflow is checked. A minus zero as imaginary part is printed with two signs (`1+-0i`).", "quantifier": "all floats of every format as wide as f32, all fixed-point types in both overflow modes, all renderings of a component that are injective and have signs only in exponents", "why_tests_cant": "all pairs of numbers and all flags", "anchors": ["src/complex/cartesian_impl/num_complex_impl.rs: write_complex, Display, LowerExp, UpperExp"]}
{"id": "C129", "title": "Associativity and distributivity on floats", "statement": "`z*(w+v) = z*w + z*v` and `(z*w)*v = z*(w*v)` where nothing overflows.", "quantifier": "all triples of finite values, every format as wide as f32", "why_tests_cant": "all triples", "anchors": ["src/complex/cartesian_impl.rs: Mul, Add", "src/complex/ops.rs: mul_cartesian"]}
{"id": "C130", "title": "Conversions and arithmetic preserve the order", "statement": "If x <= y then the same holds after a conversion to a float (from an integer, a float or a fixed-point number, overflow to infinity included), from a float to an integer (saturating), between integers if both values are representable (not otherwise: the cast wraps round), and with overflow checks to and from fixed point; after adding or subtracting a number, multiplying by a non-negative one, dividing by a positive one on integers and fixed point; and after adding, subtracting and multiplying on floats, infinities included, if the results are not NaN. Negation of floats reverses it.", "quantifier": "all pairs of values, all types and formats", "why_tests_cant": "all pairs of values; one rounding the wrong way breaks it", "anchors": ["src/fixed_impl.rs: MixedNumConversion", "src/int_impl.rs: MixedNumConversion", "src/float_impl.rs: MixedNumConversion"]}
{"id": "C131", "title": "Laws of exponents on integers", "statement": "`x^(j+k)` and `x^j * x^k` have the same outcome, panics included, and so have `(x^j)^k` and `x^(j*k)` for k > 0; `(x*y)^k = x^k * y^k` where both return, and always without overflow checks.", "quantifier": "all values of all integer types in both overflow modes, all exponents", "why_tests_cant": "all pairs of exponents, and where the overflow happens", "anchors": ["src/int_impl.rs: mixed_powi", "src/trigonometry.rs: powi"]}
{"id": "C132", "title": "Integer powers do not depend on the target", "statement": "`mixed_powi` returns the same on targets with 32-bit and with 64-bit pointers.", "quantifier": "all values of all integer types in both modes, all exponents of type i32", "why_tests_cant": "tests run on one target only", "anchors": ["src/int_impl.rs: mixed_powi", "src/fixed_impl.rs: mixed_powi", "src/complex/ops.rs: powi"]}
{"id": "C133", "title": "Odd and even functions on fixed point", "statement": "On fixed point the polynomial `sin` and `atan2` (in y) are odd, and the polynomial `cos`, the square and the root `niirf` are even.", "quantifier": "all arguments of all signed fixed-point types with room for the intermediate results", "why_tests_cant": "off by one unit at single arguments only", "anchors": ["src/fixed_impl.rs: mixed_sin, mixed_cos, mixed_atan2, mixed_sqrt", "src/trigonometry.rs: sin, cos", "src/trigonometry/atan.rs: atan2", "src/trigonometry/sqrt.rs: niirf"]}
{"id": "C134", "title": "The magnitude has the symmetries of the plane", "statement": "`mag` gives the same outcome, panics included, for (re, im), (-re, im), (re, -im) and (im, re), on fixed point and floats; so it does not change under conjugation, nor, on fixed point, under multiplication by the imaginary unit where the type has 1 and im is not MIN.", "quantifier": "all component values, all fixed-point types and float formats, both overflow modes, any square root", "why_tests_cant": "every pair of component values of the type; a test suite samples a handful of the 2^64 or more pairs", "anchors": ["src/complex/cartesian_impl.rs: mag, conj, Mul"]}
{"id": "C135", "title": "How long the routines run", "statement": "`wrap_phase` makes exactly one pass per turn taken off, so its time grows linearly with the argument (2^56 passes for the greatest FixedI64<U4>, 2^46 for 2^49 in f64); no loop of `niirf` makes more than (W+1)/2 passes on a W-bit fixed-point type with overflow checks (74 on f32, 537 on f64, infinities excepted); `sin` and `atan2` have no loops; `powi` makes one multiplication per unit of the exponent, 2^64-|e|-1 for a negative one.", "quantifier": "all arguments; wrap_phase on exact reals, all signed fixed-point types with room for 2 pi, and floats up to 2^p/10; niirf on all fixed-point types with overflow checks, and without them where 4 and |x| are representable, and on all floats but the infinities; all iteration counts and exponents", "why_tests_cant": "the slow arguments never return in a test run", "anchors": ["src/trigonometry.rs: wrap_phase, sin, powi", "src/trigonometry/sqrt.rs: niirf", "src/trigonometry/atan.rs: atan2", "src/fixed_impl.rs: mixed_powi"]}
{"id": "C136", "title": "The arctangent undoes sine and cosine", "statement": "`atan2(sin x, cos x)` with the crate's own functions is x within 0.00494 on a whole turn (up to a turn near its ends), on fixed point plus 46 units in the last place; the other way round, `sin` and `cos` of `atan2(y, x)` are the coordinates of (x, y) divided by its length within 0.00493, on fixed point plus 12 units in the last place and 7 divided by the squared larger coordinate.", "quantifier": "all angles from -pi to pi on exact reals, signed fixed-point types with at least 20 integer and 8 fractional bits, f32 (up to 3.15) and f64 (up to 4.712); the other way round all points of the plane but the origin on exact reals, those whose squares are normal on f32 and f64, and those whose squares are below half the range and at least four units in the last place (the larger one) on fixed point", "why_tests_cant": "errors of three functions add up at single arguments", "anchors": ["src/trigonometry.rs: sin, cos", "src/trigonometry/atan.rs: atan2"]}
{"id": "C137", "title": "Square and square root are nearly inverse", "statement": "The square of `niirf(x)` is x within 0.21 %, and `niirf(x^2)` is |x| within 0.1 %, plus a few units in the last place on fixed point (and 1/|raw x| for rounding the square down); no step overflows if x is at most half of the range, or the square is in range.", "quantifier": "all non-negative (square of root) or all (root of square) arguments on exact reals, signed fixed-point types with at least 4 integer bits and at least 8 (root of square: 2) fraction bits, and floats of every format as wide as f32 as long as the squares are in the normal range", "why_tests_cant": "every pair of component values of the type; a test suite samples a handful of the 2^64 or more pairs", "anchors": ["src/trigonometry/sqrt.rs: niirf", "src/trigonometry.rs: powi"]}
{"id": "C138", "title": "Scaling by powers of two on floats is exact", "statement": "`niirf(4^j x)` is `2^j niirf(x)` bit for bit, `atan2(2^k y, 2^k x)` is the same float as `atan2(y, x)`, and complex sums, differences and products of numbers scaled by powers of two are the results scaled.", "quantifier": "all formats as wide as f32; niirf on all finite arguments, subnormal ones included, and any number of passes; sums where nothing overflows, subnormal numbers included; atan2 and products where each part is zero or of a size whose square is in range before and after (2^-62 to 2^63 in f32)", "why_tests_cant": "a constant or a threshold that is not scaled shows at few arguments only", "anchors": ["src/trigonometry/sqrt.rs: niirf", "src/trigonometry/atan.rs: atan2", "src/complex/cartesian_impl.rs: Add, Sub, Mul"]}
{"id": "C139", "title": "A release build does what a debug build does, unless the debug build panics", "statement": "For every method, on the same arguments: the build with overflow checks panics, or both builds run on without end, or both return the same value.", "quantifier": "all integer and fixed-point types and, for the counter of niirf, all float formats; operators, conversions, powers, sine, cosine, arctangent, wrap_phase, niirf, complex and polar operators, display; what goes through crate cordic if that crate has the same property", "why_tests_cant": "tests run in one build mode only", "anchors": ["src/int_impl.rs", "src/fixed_impl.rs", "src/complex/cartesian_impl.rs", "src/complex/ops.rs", "src/complex/polar_impl.rs", "src/trigonometry.rs: sin, cos, wrap_phase, powi", "src/trigonometry/atan.rs", "src/trigonometry/sqrt.rs: niirf"]}
{"id": "C140", "title": "A real operand is a complex operand with imaginary part zero", "statement": "`z + t`, `z - t`, `z * t`, `z / t` for a real t give the same outcome, panics included, as the complex operator with (t, 0); sums, differences and products of numbers with imaginary part 0 are those of the real parts.", "quantifier": "all operands of all integer and fixed-point types, both overflow modes, t of any scalar type; on floats finite z, up to the sign of zeros", "why_tests_cant": "the two impls are written separately and tested separately", "anchors": ["src/complex/cartesian_impl.rs: Add, Sub, Mul, Div", "src/complex/ops.rs"]}
{"id": "C141", "title": "In a release build only divisions panic", "statement": "In a release build, addition, subtraction, multiplication, negation, absolute value, powers, sign, wrap_phase, conjugation, display and the complex and polar operators made of them never panic on integers and fixed point. What divides, `sin`, `cos`, `atan2`, `niirf` and the complex quotients included, panics on fixed point only for a division by zero and on integers only for that or an out-of-range quotient. Conversion of a float to fixed point panics exactly on NaN and infinities. In a debug build the same functions panic only for an out-of-range result and, those that divide, for a division by zero.", "quantifier": "all arguments of all integer and fixed-point types; what goes through crate cordic adds only the panics of that crate", "why_tests_cant": "a panic shows at single arguments only", "anchors": ["src/int_impl.rs", "src/fixed_impl.rs", "src/complex/cartesian_impl.rs", "src/complex/ops.rs", "src/complex/polar_impl.rs", "src/trigonometry.rs", "src/trigonometry/atan.rs", "src/trigonometry/sqrt.rs"]}
{"id": "C142", "title": "Nothing panics on floats", "statement": "No method of floats or of complex numbers over floats panics, NaN and infinities included, except `niirf` in a debug build, whose i32 counter overflows on an infinity; in a release build `niirf` does not panic either.", "quantifier": "all arguments and formats, scalars of any float or integer type; libm is taken not to panic", "why_tests_cant": "every pair of component values of the type; a test suite samples a handful of the 2^64 or more pairs", "anchors": ["src/float_impl.rs", "src/complex/cartesian_impl/num_complex_impl.rs", "src/complex/cartesian_impl.rs", "src/complex/ops.rs", "src/complex/polar_impl.rs", "src/trigonometry.rs", "src/trigonometry/atan.rs", "src/trigonometry/sqrt.rs"]}
{"id": "C143", "title": "Subtraction undoes addition", "statement": "If `z + w` returns t then `t - w` returns z, and if `z - w` returns t then `t + w` returns z; `z - w` is zero exactly if z equals w. On floats a difference is zero only of equal numbers; the difference of numbers within a factor of two is exact and `(z - w) + w` is then z; in general `(z + w) - w` is z within 2^-p (3|z| + 2|w|) part by part, and need not be z.", "quantifier": "all integer and fixed-point types in both overflow modes, wrapped sums included; all valid floats of formats as wide as f32 for which nothing overflows", "why_tests_cant": "a wrapped intermediate sum shows at few operands, and cancellation between floats is hard to sample", "anchors": ["src/complex/cartesian_impl.rs: Add, Sub", "src/complex/ops.rs: add, sub"]}
{"id": "C144", "title": "Dividing by a real undoes multiplying by it", "statement": "In a debug build, if `z * r` returns t on integers and r does not convert to zero then `t / r` returns z; `(z / r) * r` returns z less the remainders. On fixed point the same holds for integers r; for any r, `(z * r) / r` is z within 1/|r| + 1 units in the last place and `(z / r) * r` within |r| + 1 units. On floats both are z within 3 |z| 2^-p and half the least subnormal. In a release build a wrapped product is not undone.", "quantifier": "all operands of all integer, fixed-point and (as wide as f32) float types, r of any scalar type; floats where the first result neither underflows nor overflows", "why_tests_cant": "every pair of component values of the type; a test suite samples a handful of the 2^64 or more pairs", "anchors": ["src/complex/cartesian_impl.rs: Mul<T1>, Div<T1>"]}
{"id": "C145", "title": "Small angles keep relative accuracy", "statement": "Up to a quarter turn the polynomial sine is off by at most 4/10^6 of the sine, however small the angle; on floats 10.4 2^-p of the sine is added, subnormal angles included, and on fixed point the sine of a number whose square is below one unit in the last place is the number itself. In the sector |y| < x the polynomial arctangent is off by at most 0.82 % of the angle (0.81 % is not enough); on floats 8 2^-p of the angle and half the least subnormal are added as long as the product of the coordinates is in the normal range.", "quantifier": "all reals, all valid floats of formats from 24 to 60 bits (sine: magnitude up to 1.57), signed fixed-point types with at least 20 bits beside the fraction", "why_tests_cant": "an absolute error bound, which is what tests compare with, says nothing about small angles", "anchors": ["src/trigonometry.rs: sin", "src/trigonometry/atan.rs: atan2"]}
{"id": "C146", "title": "Periods, shifts and mirror images of sine and cosine", "statement": "With p the type's pi: `cos` has exactly the same outcome for angles that differ by whole multiples of 2p; for -p <= x < p, `cos(x - p/2)` has exactly the outcome of `sin(x)`; and `sin(p - x)` (2(p/2) - x in stored units) is exactly `sin(x)` on [0, p], likewise about -p/2.", "quantifier": "all angles of signed fixed-point types with 4 (mirror: 6) integer bits in both overflow modes as long as p/2 can be added, panics included; all reals", "why_tests_cant": "every pair of component values of the type; a test suite samples a handful of the 2^64 or more pairs", "anchors": ["src/trigonometry.rs: sin, cos, wrap_phase"]}
{"id": "C147", "title": "The polynomial atan2 under scaling, mirror images and turns", "statement": "In exact arithmetic `atan2_poly(y, x)` does not change if both coordinates are multiplied by a positive number; a half turn takes pi off the angle of a point above the real axis, the mirror image in the imaginary axis gives pi minus it, and off the diagonals a quarter turn of a point with x > 0 adds pi/2 and exchanging positive coordinates gives pi/2 minus it; on the diagonal the last two fail, the angle is pi/2 - 32/41. On fixed point and floats exchanging 0 < y < x gives the type's pi/2 minus the angle to the last bit; a half turn takes off exactly pi (or twice pi/2) on fixed point, and on floats adds pi or changes the sign of pi/2 bit for bit; the mirror image on fixed point is exact up to rounding of the quotient.", "quantifier": "all reals; all points of signed fixed-point types with three integer bits (the swap in both overflow modes, panics included); all finite valid floats of formats as wide as f32", "why_tests_cant": "tests compare single angles with a tolerance wider than the steps between octants", "anchors": ["src/trigonometry/atan.rs: atan2, atan_poly_1, atan_poly_2"]}
{"id": "C148", "title": "Laws of exponents on fixed point and floats", "statement": "On fixed point `x^(n+1)` is exactly `x^n * x`, overflows included; for numbers of magnitude at most 1, `x^j * x^k`, `(x^j)^k`, `(x*y)^k` and `x^k * y^k` do not panic and are as close to the exact power as the number of products in them: j+k-1, jk-1 and 2k-1 units in the last place. On floats the same counts bound the number of relative roundings 2^-p, and `x^(-n) * x^n` is 1 up to 3n-1 of them. The two sides of a law need not be equal.", "quantifier": "all fixed-point types that hold 1, both overflow modes; all valid floats of formats as wide as f32 whose powers stay in the normal range and exponents up to 2^(p-2)", "why_tests_cant": "rounding differences accumulate with the exponent and tests use small exponents", "anchors": ["src/trigonometry.rs: powi", "src/fixed_impl.rs: mixed_powi", "src/float_impl.rs: mixed_powi"]}
{"id": "C149", "title": "Laws of the decibel conversions", "statement": "With exact arithmetic the decibels of a product are the sum of the decibels, a factor of ten is 20 dB of magnitude and 10 dB of power, all four conversions are strictly increasing, and the power that belongs to a level is the square of the magnitude. On floats `mag2db(x)` is exactly 2 `pow2db(x)` and `db2mag(2x)` exactly `db2pow(x)`, bit for bit, whatever libm returns; the decibels of a product are the sum of those of the factors up to 2 (d + 2*2^-p)(|log10 x| + |log10 y|) + 2^-p decades for libm within d, and the order is kept of numbers that differ by more than the error.", "quantifier": "all positive reals and all levels; the exact laws for all floats, NaN and infinities included (2x must not overflow); the others for all positive floats whose product is in the normal range", "why_tests_cant": "the four conversions are tested at single values each, never against each other", "anchors": ["src/float_impl.rs: mixed_mag2db, mixed_db2mag, mixed_pow2db, mixed_db2pow"]}
{"id": "C150", "title": "Polynomial arctangent on fixed point is monotone and odd, to the last bit", "statement": "If x <= y and `atan_poly` returns for both, the result for x is at most the result for y, across the seam at one as well; the result for -x is exactly minus the result for x, and it returns too; twice the magnitude of a result never exceeds the type's pi. In either overflow mode it returns and is monotone wherever x^2 + 9/32 fits the type or |x| < 1.", "quantifier": "all pairs of all signed fixed-point types with three integer bits, any number of fraction bits", "why_tests_cant": "three floors and a truncated quotient could each break the order of neighbours; the pairs of one 64-bit type cannot be enumerated", "anchors": ["src/trigonometry/atan.rs: atan, atan_poly_1, atan_poly_2"]}
{"id": "C151", "title": "Sine and arctangent of machine numbers keep the order", "statement": "If x <= y lie where the sine rises, `sin(x) <= sin(y)`, and the other way round where it falls; if x <= y are floats, `atan_poly(x) <= atan_poly(y)`.", "quantifier": "all pairs of signed fixed-point numbers with 20 bits beside the fraction and of valid floats of 24 to 60 bits; the arctangent of fixed point is C150", "why_tests_cant": "neighbours swap at isolated places only", "anchors": ["src/trigonometry.rs: sin", "src/trigonometry/atan.rs: atan"]}
{"id": "C152", "title": "Laws of polar multiplication on machine numbers", "statement": "In a debug build, if both ways to multiply three polar integers return they agree, and scaling a factor by a non-zero number scales the product; in a release build they agree as long as no product of non-zero magnitudes wraps round to zero (16*16*3 in 8 bits forgets the angle one way only). On fixed point the magnitudes agree up to 1 + |p| + |r| units in the last place and the angles exactly unless a magnitude was rounded to zero. The product of the conjugates is the conjugate of the product on integers and fixed point in both modes if conjugates and product return, and on all floats but for the signs of zeros. On floats both ways to multiply three numbers are within two roundings of the exact magnitude and 2.1 * 2^-p of the sum of |angles|.", "quantifier": "all polar numbers of all integer and fixed-point types, all floats (associativity: formats as wide as f32, products in the normal range, finite sums of angles)", "why_tests_cant": "every pair of component values of the type; a test suite samples a handful of the 2^64 or more pairs", "anchors": ["src/complex/polar_impl.rs: Mul, conj", "src/complex/ops.rs: mul_polar"]}
{"id": "C153", "title": "Products in polar and in Cartesian form agree on machine numbers", "statement": "With an external sincos of accuracy e, multiplying two polar numbers and converting, or converting both and multiplying, neither panics nor overflows, and each part of both results is near the product |p||q| cos/sin(a + b): on fixed point within (|p||q| + ulp)(e + (|a+b|/5 + 1/2)(ulp + 2^-51)) + 2 ulp one way and twice the carried errors of the factors (C88) + 2 ulp the other; on floats, with T = |a|+|b|, within |p||q|((1+2^-p)(e + ((T+5)^2/6 + 2) 2^-p) + (1+T) 2^-p) and twice the carried errors of the factors (C86), up to multiples of the least subnormal.", "quantifier": "all polar numbers, zero, negative magnitudes and unnormalised angles included, whose products are in range; both overflow modes; formats as wide as f32", "why_tests_cant": "every pair of component values of the type; a test suite samples a handful of the 2^64 or more pairs", "anchors": ["src/complex/polar_impl.rs: Mul, to_cartesian", "src/complex/ops.rs: mul_polar, mul_cartesian, to_cartesian"]}
{"id": "C154", "title": "Conjugation against conversions and the exponential on machine numbers", "statement": "If the external sine is odd, the cosine even and the arctangent odd to the last bit: on floats `exp(conj z)` is `conj(exp z)` and `to_cartesian(conj p)` is `conj(to_cartesian p)` bit for bit but for the signs of zeros (both conversions loop forever for the same angles; an angle that wraps to -pi has the same Cartesian form as its opposite), and off the real axis the polar form of `conj z` has the same magnitude and the opposite angle. On fixed point the same holds, with the imaginary part opposite or one unit less because products round down; that unit is lost in simple cases.", "quantifier": "all floats, NaN and infinities included (conversion: all valid angles); all fixed-point numbers with overflow checks, the polar form in both modes; all external functions with these symmetries", "why_tests_cant": "a test would have to compare two results bit for bit; existing tests compare each with a literal", "anchors": ["src/complex/cartesian_impl.rs: Conj, mixed_exp", "src/complex/polar_impl.rs: Conj, to_cartesian", "src/complex/ops.rs: to_polar, to_cartesian"]}
{"id": "C155", "title": "Laws of complex powers on fixed point", "statement": "`powi(z, 0)` is exactly the cosine and sine the external routine gives for angle 0 (1 if those are exact), for every z whose magnitude and angle exist; `powi(z, 1)` is exactly the conversion to polar form and back, panics and loops included, if the angle is in [-pi, pi); `powi(z, j) * powi(z, k)` is near `powi(z, j+k)`, within the carried errors of C108, under the conditions of C108 for j+k alone; with symmetric external functions `powi(conj z, n)` is the conjugate of `powi(z, n)`, the imaginary part possibly one unit less; a number whose squares round down to zero has power exactly 0 for every positive exponent.", "quantifier": "all signed fixed-point numbers and exponents meeting these conditions; both overflow modes (product and conjugate: overflow checks on); all external functions meeting the bounds", "why_tests_cant": "every pair of component values of the type; a test suite samples a handful of the 2^64 or more pairs", "anchors": ["src/complex/ops.rs: powi"]}
{"id": "C156", "title": "Addition formulas of sine and cosine", "statement": "The computed `sin(x+y)` and `cos(x+y)` differ from `sin x cos y + cos x sin y` and `cos x cos y - sin x sin y`, formed from the computed values, by at most 1.54e-5 (exact arithmetic), 2.3e-5 (f32), 1.4e-5 (f64; for both the rounded sum is used), 1.54e-5 plus 35 ulp and 163 squared ulp (signed fixed point with at least 20 integer bits).", "quantifier": "all angles with x, y and x+y in [-pi, pi] (floats: magnitude up to 3.14), both overflow modes", "why_tests_cant": "every pair of component values of the type; a test suite samples a handful of the 2^64 or more pairs", "anchors": ["src/trigonometry.rs: sin, cos"]}
{"id": "C157", "title": "Square root of 4^j times a number, on fixed point", "statement": "For x of at least a quarter, `sqrt(4^j x)` is exactly 2^j times `sqrt(x)`, bit for bit, and overflows exactly as a multiplication by 2^j would; if `sqrt(x)` panics so does `sqrt(4^j x)`, with the same panic. For positive x with 4^j x below one, `sqrt(x)` is `sqrt(4^j x)` divided by 2^j with the remainder dropped, and one panics exactly if the other does. The same holds for `niirf` with any number of iterations.", "quantifier": "all signed and unsigned fixed-point types of up to 128 bits that hold four and have at least two fraction bits, any j, both overflow modes", "why_tests_cant": "tests look at single radicands; that two results agree to the last bit across powers of four is never compared", "anchors": ["src/trigonometry/sqrt.rs: niirf", "src/fixed_impl.rs: mixed_sqrt"]}
{"id": "C158", "title": "Laws of the complex exponential on machine numbers", "statement": "With the external functions within d: `exp(z) * exp(w)`, each computed, is near e^(z+w), near the computed `exp(z + w)`, and near 1 if w = -z, within the carried errors of C100 and C73/C83 (on floats the rounded sum moves the argument by 2^-p times its size); nothing panics or overflows while the errors leave room. If the external sine and cosine of 0 are exact, the exponential of a real number is the real exponential with imaginary part zero: bit for bit on fixed point, but for the sign of a zero on floats.", "quantifier": "all complex numbers whose exponentials and their product are in range; fixed point: imaginary parts within [-4, 4], both overflow modes (computed sum: overflow checks on); floats: all finite numbers of formats as wide as f32; all external functions meeting the bounds", "why_tests_cant": "every pair of component values of the type; a test suite samples a handful of the 2^64 or more pairs", "anchors": ["src/complex/cartesian_impl.rs: mixed_exp, Mul, Add"]}
{"id": "C159", "title": "Simple arguments give their textbook results", "statement": "At simple arguments the functions return the exact value: `sqrt(0)` is 0 and `sqrt(1)` is 1, `sin(0)` is 0 and `cos(0)` is 1, `atan(0)` is 0, `atan2` on the axes is 0, the type's pi, or plus or minus half of it (truncated), `mag` of zero is 0, `wrap_phase(0)` is 0, and a polar number of magnitude zero converts to the origin whatever its angle.", "quantifier": "all signed fixed-point types with enough integer bits and both overflow modes, all floats as wide as f32 and both zeros; axis points at any distance (fixed point: not the smallest number); any number of square-root iterations", "why_tests_cant": "every pair of component values of the type; a test suite samples a handful of the 2^64 or more pairs", "anchors": ["src/trigonometry.rs: sin, cos, wrap_phase", "src/trigonometry/atan.rs: atan, atan2", "src/trigonometry/sqrt.rs: niirf", "src/complex/ops.rs: to_cartesian"]}
{"id": "C160", "title": "Sine and cosine change no faster than their argument", "statement": "The polynomial `sin` and `cos` of two numbers differ by no more than the numbers do, as for the true functions: exactly so on the reals; on fixed point up to nine (sine) and eleven (cosine) units in the last place; on floats of precision p up to 31 * 2^-p (sine) and ((|x|+12)^2 + (|y|+12)^2)/6 * 2^-p (cosine). The two cosines may be on different turns, and the fold at pi/2 and the seam at pi make no step.", "quantifier": "sine: reals of magnitude up to 5, fixed point from -pi to pi, floats up to 4.712; cosine: all reals, fixed-point numbers whose sum with pi/2 does not overflow, floats up to 100000; fixed-point types with twenty integer bits, both overflow modes; float formats as wide as f32", "why_tests_cant": "a step at a fold or a seam shows only between two particular neighbours; tests compare single values with a tolerance", "anchors": ["src/trigonometry.rs: sin, cos, wrap_phase"]}
{"id": "C161", "title": "The arctangent changes no faster than its argument", "statement": "The polynomial `atan` of two numbers x <= y does not decrease and rises by no more than y - x, as the true function does.", "quantifier": "all reals; all finite floats of formats as wide as f32 with 4x^2 in range, up to 24 * 2^-p; all signed fixed-point numbers with three integer bits, up to 20 units: with overflow checks whenever both calls return, in every build if 2x^2 is representable", "why_tests_cant": "a step between two neighbouring arguments shows only if a test compares exactly those two; single values stay within the tests' tolerance", "anchors": ["src/trigonometry/atan.rs: atan, atan2"]}
{"id": "C162", "title": "The magnitude of a real number is its absolute value", "statement": "`mag` of a complex number with one part zero is the absolute value of the other part, and `mixed_abs` applied to its own result changes nothing.", "quantifier": "all reals; all floats of formats as wide as f32 with a correctly rounded external square root, if the square of a part is a normal number and the sum of the squares does not overflow; false on fixed point", "why_tests_cant": "that a magnitude is exact to the last bit for every number on an axis cannot be sampled", "anchors": ["src/complex/ops.rs: abs", "src/complex/cartesian_impl.rs: mag, mixed_abs"]}
{"id": "C163", "title": "The magnitude grows with the parts and is at least each of them", "statement": "`mag` of a complex number is at least the absolute value of each part and at most their sum, and does not decrease when the parts grow in absolute value.", "quantifier": "all reals; all floats of formats as wide as f32 with a correctly rounded external square root (lower bounds: the square is a normal number; no overflow); fixed point of up to 128 bits with the bound of C72 in both overflow modes", "why_tests_cant": "an inversion shows only between two particular neighbours", "anchors": ["src/complex/ops.rs: abs", "src/complex/cartesian_impl.rs: mag"]}
{"id": "C164", "title": "Adding up a list with `+` and `-`", "statement": "A loop that adds (or takes away) the numbers of a list one by one returns the exact sum of each part if the sum so far fits the type after every step. Otherwise a build with overflow checks panics, and one without them returns the sum modulo 2^W, so that a total that fits is right whatever overflowed on the way. Two orders of the same terms give the same number if both return. On floats the sum of n terms is off by at most (1 + 2^-p)^n - 1 times the sum of the magnitudes, and exact if all terms are multiples of one unit and their magnitudes add up to fewer than 2^p units.", "quantifier": "all lists of any length; all integer and fixed-point types, signed and unsigned, both overflow modes; exact reals; all finite floats of formats as wide as f32 while the sum of magnitudes is in range", "why_tests_cant": "rounding and wrapping accumulate over many steps; a test adds two or three numbers", "anchors": ["src/complex/cartesian_impl.rs: Add, Sub"]}
{"id": "C165", "title": "Adding up a list with `+=`", "statement": "A loop that adds the numbers of a list with `+=` leaves the sum of the list.", "quantifier": "all lists of any length, all component types", "why_tests_cant": "the tests apply `+=` once, to numbers for which the result happens to be right", "anchors": ["src/complex/cartesian_impl.rs: AddAssign"]}
{"id": "C166", "title": "Inner products", "statement": "A loop `z = z + a * b` over a list of pairs computes the inner product: exactly on integers when it returns with overflow checks (signed types do if the magnitudes of all products together fit) and modulo 2^W without them; within n units (real part) and too small by at most 2n units (imaginary part) on fixed point after n terms; on floats within (1 + 2^-p)^(n+2) - 1 times the sum of the magnitudes of the real products plus 2n (1 + 2^-p)^n of the smallest float. Without overflow checks sums and inner products are the same unless the build with checks panics.", "quantifier": "all lists of any length; all integer and fixed-point types; exact reals; all finite floats of formats as wide as f32 while the sum of magnitudes stays below half the range", "why_tests_cant": "errors accumulate over many steps; a test multiplies single numbers", "anchors": ["src/complex/cartesian_impl.rs: Mul, Add", "src/complex/ops.rs: mul_cartesian"]}
{"id": "C167", "title": "A phase accumulator", "statement": "The loop x = wrap_phase(x + d) never fails and stays in [-pi, pi) however long it runs, on fixed-point types with four integer bits and steps of up to half a turn. It holds the start plus all steps up to whole turns of the type's own constant, exactly; against the true circle it is off only through that constant, (|T|/6 + 2/3) units in the last place after steps that add up to T. On floats it drifts by at most 18 * 2^-p per step. The polynomial sine of the phase is the sine of the total up to the accuracy of the sine and this drift.", "quantifier": "all starts in range, all lists of steps of any length; fixed point in both overflow modes (sine: twenty integer bits), exact reals, finite floats of formats with 24..60 bits and steps up to 1.6", "why_tests_cant": "drift shows after millions of steps; a test wraps single angles", "anchors": ["src/trigonometry.rs: wrap_phase, sin"]}
{"id": "C168", "title": "A NaN operand is not lost", "statement": "An operation on floats one of whose operands is NaN, or has a NaN part, gives NaN in every part of the result that depends on it.", "quantifier": "all floats of every format: the basic operations, complex and scalar operators, powers, phase wrapping, sine, cosine, arctangent, square root, magnitude and conversions", "why_tests_cant": "the tests never use a NaN", "anchors": ["src/complex/cartesian_impl.rs", "src/complex/ops.rs", "src/trigonometry.rs", "src/trigonometry/atan.rs", "src/trigonometry/sqrt.rs"]}
{"id": "C169", "title": "Multiplying up a list", "statement": "A loop `z = z * w` over a list computes the product: of Gaussian integers exactly when it returns with overflow checks (it does while the sizes |re| + |im| of the factors so far multiply to less than 2^(W-1)) and modulo 2^W without them, so that a product that fits is right whatever overflowed on the way; two orders of the same factors agree. On fixed point n factors no larger than R give an error of at most 9/4 (1 + R + ... + R^(n-1)) units, and a decaying product (R < 1) never overflows and stays within 9/4 / (1 - R) units however long it runs. On floats the error is at most ((1 + 5 * 2^-p)^n - 1) R^n times the size of the start plus an underflow term, and products of Gaussian integers are exact below 2^p.", "quantifier": "all lists of any length; all integer types, both overflow modes; signed fixed point with checks (without them: the same unless the build with checks panics); exact reals; all finite floats of formats as wide as f32 while the bound is in range", "why_tests_cant": "errors and wrapping accumulate over many steps; a test multiplies two numbers", "anchors": ["src/complex/cartesian_impl.rs: Mul", "src/complex/ops.rs: mul_cartesian"]}
{"id": "C170", "title": "A one-pole filter and Horner's rule", "statement": "The loop `y = y * a + w` over a list computes y a^n + w_0 a^(n-1) + ... + w_(n-1): exactly on exact reals; on integers exactly if the build with overflow checks returns, and reduced modulo 2^W without checks, so that a value that fits is right whatever overflowed on the way. On fixed point a value that is returned is off by at most 9/4 (1 + R + ... + R^(n-1)) units, R = |a|. If R < 1, inputs are at most B and Y is a bound with R Y + B + 9/4 ulp <= Y inside the range of the type, the filter never panics however long it runs, its state stays within Y, its error stays within 9/4 ulp / (1 - R) for ever, and two filters started differently with the same input end up within R^n times their distance plus twice that error. On floats likewise, with error (7 * 2^-p Y + 4 * 2^emin) / (1 - R). A build without overflow checks computes the same unless the build with checks panics.", "quantifier": "all feedback coefficients, starts and lists of inputs of any length; all widths and fraction bits; all float formats", "why_tests_cant": "A filter runs for as long as the program does; a test runs it for some samples. That rounding errors stay bounded for ever, and that no input sequence overflows it, is a statement about all sequences of all lengths.", "anchors": ["src/complex/cartesian_impl.rs:173-179", "src/complex/cartesian_impl.rs:299-307", "src/complex/ops.rs:121-132"]}
{"id": "C171", "title": "A number turned step by step by polar factors ends where the product of the factors says", "statement": "for p in ps { z *= p } on a Cartesian z and polar p multiplies z by the product of the magnitudes and turns it by the sum of the angles. On exact reals it is exact, and turns that add up to zero give z back. On every type it does what multiplying by the converted factors does. On fixed point and floats it returns without panic while the number has room, and the result is within ((R+d)^n - R^n)|z| + e(1 + S + ... + S^(n-1)), S = R+d, of the exact one, where R bounds the magnitudes and d, e are the relative and absolute error of one step. With magnitudes of one the size of z drifts by no more than that. A release build gives the same number unless the debug build panics.", "quantifier": "all z, all lists of polar numbers of any length; all fixed-point widths with room for the numbers, both build modes; every float format up to 60 bits of precision; every sincos within a stated error", "why_tests_cant": "The drift of an oscillator depends on how many steps it has run and on every angle; tests look at one multiplication.", "anchors": ["src/complex/cartesian_impl.rs:246-253", "src/complex/ops.rs"]}
{"id": "C172", "title": "Multiplying up a list of polar numbers multiplies the magnitudes and adds the angles", "statement": "for q in qs { p = p * q } on polar numbers gives the product of the magnitudes and the sum of the angles; a zero magnitude anywhere gives the canonical zero with angle zero. On exact reals it is exact. On integers with overflow checks it returns the exact product and sum when every prefix fits and panics otherwise; without checks both are reduced modulo 2^W. On fixed point with checks the angle is exact and the magnitude is within 2^-F (1 + R + ... + R^(n-1)) of the product, and so is the complex number it stands for; signed factors of magnitude at most one never make it panic while the angles have room. On floats it returns finite numbers within ((1+u)^n - 1) of product and sum, relatively, plus the underflow term. Without overflow checks a fixed-point angle that leaves the type points elsewhere.", "quantifier": "all p, all lists of polar numbers of any length; all integer and fixed-point types, both build modes; every float format", "why_tests_cant": "The error depends on the length of the list and every entry; tests multiply two numbers.", "anchors": ["src/complex/ops.rs:98-117", "src/complex/polar_impl.rs"]}
{"id": "C173", "title": "Sums of turned numbers", "statement": "for (z, p) in ts { acc = acc + z * p } with Cartesian samples z and polar factors p adds up the products, as one bin of a discrete Fourier transform does. On exact reals it is exact, and a tone of h turns in n samples gives n in bin j if n divides h - j and zero in every other bin. On signed fixed point it returns without panic while the sizes have room and is off by at most 2B times the sizes of the samples together and 9/4 units for each term, B the error of one conversion. On floats it is off by the errors of the products and a factor (1+2^-p)^n for the additions. A release build gives the same sum unless the debug build panics.", "quantifier": "all lists of any length; all signed fixed-point types with room for the sums, both build modes; every float format up to 60 bits of precision; every sincos within a stated error", "why_tests_cant": "The error depends on every sample, every angle and the length of the list; tests look at single products.", "anchors": ["src/complex/cartesian_impl.rs:237-244", "src/complex/ops.rs"]}
{"id": "C174", "title": "Changing to polar form and back many times", "statement": "for _ in 0..n { z = z.to_polar().to_cartesian() } leaves z as it is on exact reals. On floats and on signed fixed point it returns, without panic, a number no further from z than ((1+d)^n - 1)|z| + e(1 + (1+d) + ... + (1+d)^(n-1)), where d and e are the relative and absolute error of one trip (from the errors of root, arctangent and sincos and the rounding), as long as this bound keeps the number away from zero and its square in range; while n d is at most a half that is at most 2n(d|z| + e). A release build gives the same number unless the debug build panics.", "quantifier": "all n and all Cartesian numbers that far from zero and from overflow; all signed fixed-point types with at least 2 fraction bits and 3 integer bits, both build modes; every float format up to 60 bits of precision; every root, arctangent and sincos within stated errors", "why_tests_cant": "Errors of repeated conversions add up; tests convert once and compare with a tolerance.", "anchors": ["src/complex/ops.rs:9-17", "src/complex/ops.rs:58-69", "src/complex/cartesian_impl.rs:46-54", "src/complex/polar_impl.rs:48-56"]}
{"id": "C175", "title": "The angle between two numbers", "statement": "(z * w.conj()).arg(), what a frequency demodulator computes, is the angle of z minus the angle of w up to whole turns. On exact reals it is exactly that, between -pi and pi, and a number turned by t at whatever size gives t. On signed fixed point it returns without panic while the product has room, and is off by the error of the arctangent and 27/4 units divided by the product of the sizes; on floats by the error of the arctangent, 15 * 2^-p and an underflow term. If the angles differ by at most 2.84 no turn is added. A release build gives the same unless the debug build panics.", "quantifier": "all pairs of non-zero Cartesian numbers whose product is at least ten times its rounding error and has room; all signed fixed-point types, both build modes; all float formats as wide as f32; every arctangent within a stated error", "why_tests_cant": "The error depends on the sizes and directions of both numbers; tests look at single conversions.", "anchors": ["src/complex/cartesian_impl.rs:147-150", "src/complex/cartesian_impl.rs:467-485", "src/complex/ops.rs:121-132"]}
{"id": "C176", "title": "Size and angle of the exponential", "statement": "z.mixed_exp().to_polar() has magnitude e^re and angle im up to whole turns. On exact reals exactly, with the angle brought between -pi and pi, and equal to im if im is there already. On floats the magnitude is off by a relative 3/2 h + 23/20 (2.1 * 2^-p + 1.01 d) and the angle by pi d + 2^emin + 3 h, where d is the error of the library functions and h = 5/2 d + 2 * 2^-p + 2 * 2^emin / e^re; on signed fixed point the magnitude is off by 3/2 P and the error of the root, the angle by d + 3 P / e^re, P = d(e^re + 1 + d) + 2^-F. No turn is added while |im| is at most 2.84. A release build gives the same unless the debug build panics.", "quantifier": "all z whose exponential has room, is at least ten times its error and has squares in range; signed fixed-point types with at least 2 fraction bits and 3 integer bits (imaginary part within [-4, 4]), both build modes; all float formats as wide as f32; every set of library functions within the stated errors", "why_tests_cant": "Errors of three external functions and of the rounding combine over the whole plane; tests look at three values.", "anchors": ["src/complex/cartesian_impl.rs:488-519", "src/complex/ops.rs:9-17", "src/complex/cartesian_impl.rs:46-54"]}
{"id": "C177", "title": "The Fourier transform and its inverse", "statement": "Bin j of the transform of n samples adds up, with `+`, the samples times (`*`) the polar factor of magnitude 1 and angle -2 pi j k / n; the inverse turns the other way and divides each sum by n with `/`. On exact reals no step panics, bin j is the sum over k of x_k e^(-2 pi i j k / n), the inverse of the transform gives back the samples, the sum of the squared sizes of the bins is n times that of the samples, and two blocks with the same bins are the same block. Adding blocks adds their bins, turning a block round by s places turns bin j by j s / n turns, multiplying bins with `*` and going back gives the cyclic convolution of the blocks, and the bins of a block without imaginary parts are conjugate (`conj`) in pairs.", "quantifier": "all finite lists of Cartesian numbers with exact real parts", "why_tests_cant": "The claim is about every block length and every sample at once; tests multiply single pairs of numbers.", "anchors": ["src/complex/cartesian_impl.rs:237-244", "src/complex/cartesian_impl.rs:301-307", "src/complex/cartesian_impl.rs:422-442", "src/complex/ops.rs:58-69", "src/complex/ops.rs:121-132"]}
{"id": "C178", "title": "Infinite operands", "statement": "On floats, multiplying a complex number by an infinite scalar makes every non-zero part infinite with the sign of the product and zero parts NaN; dividing by it makes finite parts zeros with the sign of the quotient and the others NaN. An infinite part times or over a finite non-zero scalar is infinite with the sign of the product; adding to or subtracting from it leaves it, unless the other operand is the opposing infinity or NaN. `conj` gives the opposite infinity, an infinite real number times a number with non-zero parts has both parts infinite with the signs of the products, and the magnitude of a polar number behaves like a part.", "quantifier": "all floats and formats, both signs", "why_tests_cant": "2^128 inputs", "anchors": ["src/complex/cartesian_impl.rs:198-219", "src/complex/cartesian_impl.rs:301-307", "src/complex/cartesian_impl.rs:317-323", "src/complex/cartesian_impl.rs:422-442", "src/complex/cartesian_impl.rs:467-485", "src/complex/ops.rs:121-132", "src/complex/polar_impl.rs:153-170"]}
{"id": "C179", "title": "Constants in the code", "statement": "The whole-number constants used by the sine, arctangent, square-root and decibel functions are what `mixed_from_num` makes of the `i32`, and the fractional constants what it makes of the `f64`, on integers, fixed point and floats. A decimal constant is read as the `f64` nearest to it, ties to even, before it is converted.", "quantifier": "all i32 and all finite f64 constants; every type, width, fraction and format", "why_tests_cant": "2^64 constants and every type", "anchors": ["src/trigonometry/sqrt.rs:88-99", "src/trigonometry/sqrt.rs:140", "src/trigonometry/atan.rs:18-37", "src/trigonometry.rs:89-92", "src/fixed_impl.rs:6-16", "src/int_impl.rs:3-17", "src/float_impl.rs:12-23"]}
