{
 "C01": [
  "proved",
  "Integers and fixed point in both overflow modes, and the free functions."
 ],
 "C02": [
  "proved",
  "Checked and wrapping integers, and exact reals."
 ],
 "C03": [
  "proved",
  "All component types."
 ],
 "C04": [
  "proved",
  "Wrapping integers of every width."
 ],
 "C05": [
  "partial",
  "The property is false: `+=` computes the imaginary part from the updated real part. C05_counterexample refutes it; C05_exact, C05_exact_int and C05_exact_fixed say exactly when the two forms agree (z.im is the sum of the real parts, in the machine's arithmetic)."
 ],
 "C06": [
  "partial",
  "The property is false, as for C05. C06_counterexample refutes it; C06_exact, C06_exact_int and C06_exact_fixed say exactly when the two forms agree."
 ],
 "C07": [
  "partial",
  "The property is false: the divisor's imaginary part is never read. C07_counterexample refutes it, C07_actual gives what is computed, C07_exact says exactly when the quotient is right."
 ],
 "C08": [
  "proved",
  "All component types."
 ],
 "C09": [
  "proved",
  "All component types."
 ],
 "C10": [
  "proved",
  "All component types."
 ],
 "C11": [
  "proved",
  "Integers, fixed point, floats and exact reals, by integer and float zeros; the operator and the free function div_scalar_cartesian."
 ],
 "C12": [
  "partial",
  "The property is false at zero, on every element type (C12_counterexample_int, _f64, _fixed, _float). C12_partial proves it for every other scalar."
 ],
 "C13": [
  "proved",
  "Exact panic condition for integer components."
 ],
 "C14": [
  "proved",
  "Exact reals; integers in both modes; fixed point (multiplication there is C123)."
 ],
 "C63": [
  "proved",
  "All component types."
 ],
 "C15": [
  "proved",
  "Exact reals; the generic shape for every signed type."
 ],
 "C16": [
  "proved",
  "Exact reals."
 ],
 "C17": [
  "proved",
  "Exact reals."
 ],
 "C18": [
  "proved",
  "Signed fixed point with at least four integer bits (both overflow modes) and exact reals, for an arbitrary sine/cosine routine."
 ],
 "C19": [
  "proved",
  "All component types; exact reals for the modulus."
 ],
 "C20": [
  "proved",
  "Exact reals."
 ],
 "C21": [
  "proved",
  "Fixed point, integers, floats, exact reals."
 ],
 "C22": [
  "proved",
  "Fixed point, integers, floats, exact reals."
 ],
 "C23": [
  "proved",
  "Exact reals."
 ],
 "C24": [
  "proved",
  "Exact reals, every exponent below 2^31; C24_bound_needed shows the bound is needed."
 ],
 "C30": [
  "proved",
  "Every width and fraction with at least four integer bits, both overflow modes."
 ],
 "C31": [
  "proved",
  "Fixed point and exact reals."
 ],
 "C32": [
  "partial",
  "The property is false with overflow checks on: C32_counterexample. C32_partial proves it for every supported type with checks off."
 ],
 "C33": [
  "proved",
  "Exact reals."
 ],
 "C25": [
  "proved",
  "mixed_powi on integers for exponents in the i32 range (C25_int_powi), the generic powi for every exponent (C25_trigonometry_powi), and the zero exponent."
 ],
 "C26": [
  "proved",
  "Negative exponents are reinterpreted as 2^64+exp; behaviour proved in both modes."
 ],
 "C27": [
  "proved",
  "sign for integers, fixed point and reals; sign times abs gives the value back."
 ],
 "C28": [
  "proved",
  "abs for integers and fixed point including the minimum value in both modes."
 ],
 "C29": [
  "proved",
  "is_positive/is_negative exclusivity for integers, fixed point and floats."
 ],
 "C54": [
  "proved",
  "Integer to integer conversions."
 ],
 "C55": [
  "proved",
  "Integer to fixed and back; floor semantics of fixed to integer."
 ],
 "C56": [
  "proved",
  "Cartesian, polar and real conversions."
 ],
 "C57": [
  "proved",
  "Zero and one identities for integers, fixed point, Cartesian forms and exact reals. Floats are covered by C94."
 ],
 "C53": [
  "proved",
  "Exact real arithmetic."
 ],
 "C58": [
  "proved",
  "Every supported type, any number of fraction bits, with 2^-52 instead of 2^-51."
 ],
 "C59": [
  "partial",
  "False for signed types with F = W-3: counterexample in checked builds and the wrong value in wrapping builds. Proved for all other supported types."
 ],
 "C60": [
  "proved",
  "All Cartesian integers that print; injective in both modes including the smallest value; without checks the smallest value reads back as its negation (C60_reads)."
 ],
 "C61": [
  "proved",
  "Any component type given |re|, |im| (C61_layout); integers and exact reals in full."
 ],
 "C62": [
  "partial",
  "False for the smallest signed value in checked builds (counterexample); proved everywhere else."
 ],
 "C64": [
  "proved",
  "Integers, fixed point, and any component type compared like a linear order."
 ],
 "C34": [
  "partial",
  "False: diverges exactly on infinities and magnitudes above 2^(p+3) (C34_f32, C34_f64, witness 1e9f32). Termination and range proved for all other inputs, for every binary format."
 ],
 "C35": [
  "proved",
  "Exact real arithmetic; C35_outside shows that the interval matters."
 ],
 "C36": [
  "proved",
  "Exact real arithmetic, every real argument."
 ],
 "C37": [
  "proved",
  "Exact real arithmetic."
 ],
 "C38": [
  "partial",
  "The property is false: 9! = 362880 does not fit a type with fewer than 20 integer bits. C38_counterexample: in checked builds sin then panics for every argument; C38_wrapping_counterexample: with at most 7 integer bits it divides by zero in wrapping builds as well; C38_sin_partial: with at least 20 integer bits sin and cos return. Without overflow checks they also return with 8 to 19 integer bits (C38_release_returns); with 16 to 19 of them the result is within 0.0023 + 7/2^F of the true sine (C38_release_accuracy) and within 0.0024 + 9/2^F of the cosine (C38_release_accuracy_cos), and the loss is real: sin(pi/2) is 217/256 with 8.8 bits and exceeds 1 with 14.18 bits (C38_release_counterexample)."
 ],
 "C39": [
  "proved",
  "All rounding included, both overflow modes; the sine (7 units in the last place) and the cosine (9)."
 ],
 "C40": [
  "proved",
  "Exact real arithmetic; the bound is sharp (C40_sharp)."
 ],
 "C41": [
  "partial",
  "The property is false: on the diagonals the error is 0.28 degrees (C41_counterexample; C41_counterexample_machine on f32, f64 and I16F16). C41_near_axes_partial: the documented bound holds where one coordinate is at most a fifth of the other. C41_exact_partial: it holds exactly where the smaller coordinate is at most 0.219 of the larger or between 0.8926 and 0.9163 of it (the three limits exist and are given to three places)."
 ],
 "C42": [
  "proved",
  "Exact real arithmetic."
 ],
 "C43": [
  "partial",
  "The property is false: for tiny non-zero coordinates the denominator rounds to zero (C43_counterexample), and the most negative number overflows in checked builds (C43_min_counterexample). C43_partial and C43_exact: where it does return."
 ],
 "C44": [
  "proved",
  "Definition for every component type; accuracy and oddness with exact real arithmetic."
 ],
 "C65": [
  "proved",
  "All rounding included, both overflow modes."
 ],
 "C45": [
  "proved",
  "Relative error at most 9.96e-4."
 ],
 "C46": [
  "partial",
  "Documented bound is false with two iterations (witness 0.708^2; C46_counterexample_machine: the root of 1/2 on f32, f64 and I16F16); proved 7.2e-4 with two and 5e-4 with three or more. C46_exact_partial says exactly where two iterations meet the documented bound: outside of four intervals, starting at 7/16, 1/2, 9/16 and 5/8."
 ],
 "C47": [
  "proved",
  ""
 ],
 "C48": [
  "proved",
  "Factor ten per iteration, and convergence."
 ],
 "C49": [
  "proved",
  "All rounding included, both overflow modes. Reworded once: the first wording had no 2^-F relative term, but rounding in the normalised range is scaled up with the root, so the error is not a fixed number of units in the last place. C49_fine has smaller constants for 8 or more fraction bits."
 ],
 "C50": [
  "partial",
  "The property is false for types with F = W-3: the literal 4 does not fit, so checked builds panic for every argument outside [0.25, 1) (C50_counterexample; C50_domain is the exact domain). C50_partial proves it for all other signed types of at least 8 bits. Without overflow checks the literal is -4 (C50_release): the call returns, the root is right for numbers in 16^-i [1/4, 1), and zero or negative for numbers in 16^-i [1, 4)."
 ],
 "C51": [
  "partial",
  "The property is false in checked builds: x - y^2 underflows on large parts of the range (C51_counterexample, at least 12 fraction bits). C51_exact_partial says exactly for which arguments a checked build returns and for which it panics, on every unsigned type with two fraction and three integer bits. C51_partial: on 4^K * [0.333, 0.855] it returns, with the accuracy of C49. Without overflow checks it returns on every supported type (C51_release_returns), but for numbers below 1 in the panicking ranges the result is off by more than a fifth of the root (C51_release_wrong)."
 ],
 "C52": [
  "partial",
  "The property is false: without fraction bits, and on integers, the result is 0 for every positive argument (the three counterexample theorems). Only the root of 0 is right (C52_zero_partial)."
 ],
 "C66": [
  "proved",
  "Integers: the printed text parses back, for every value; generic: for every injective rendering without the angle sign. Component rendering is a parameter except decimal integers."
 ],
 "C67": [
  "proved",
  "Rust as-cast semantics (saturating float to integer, nearest-even integer to float) are part of the trusted reading of the model; every integer width including 128 bits."
 ],
 "C68": [
  "proved",
  "from_num/to_num of the fixed crate are modelled from its documentation; C68_bound_needed shows why wide types are excluded from the exact round trip."
 ],
 "C69": [
  "proved",
  "Integers, fixed point and both float formats."
 ],
 "C70": [
  "proved",
  "For every valid finite float of a format at least as wide as f32, with all roundings of the model; instances for f32 and f64."
 ],
 "C71": [
  "partial",
  "False: on the infinities the normalising loop never ends in a release build (C71_counterexample); in a debug build its i32 counter overflows after 2^31 passes (C71_counterexample_debug). C71_partial: every other float gives a result, NaN included."
 ],
 "C72": [
  "proved",
  "With all roundings, for signed types with F>=2, W>=8, F+4<=W; the panic condition for every type."
 ],
 "C73": [
  "proved",
  "Exact results, exact domain, rounding error and wrap-around."
 ],
 "C74": [
  "proved",
  "By induction on the exponent, both overflow modes, signed and unsigned."
 ],
 "C75": [
  "proved",
  "error of the repeated rounded subtraction bounded through a loop invariant; every binary format with 24..60 bits of precision"
 ],
 "C76": [
  "proved",
  "every binary format with 24..60 bits"
 ],
 "C77": [
  "proved",
  "every binary format with 24..60 bits"
 ],
 "C78": [
  "partial",
  "False: cos never returns exactly for infinities and magnitudes above 2^(p+3) (2^27 for f32, 2^56 for f64), C78_f32/C78_f64; terminates everywhere else (C78_partial)"
 ],
 "C79": [
  "proved",
  "within the domain where the squares neither overflow nor underflow; the rest is C80"
 ],
 "C80": [
  "partial",
  "False of the code: C80_nan_iff says exactly for which finite floats atan2 gives NaN (both non-zero, and the product overflows or both squares vanish), C80_nonfinite what happens at infinities and NaN (NaN unless the other operand is zero); f32 witnesses, and C80_off a finite result more than 0.77 rad away from the angle. The partial covers the rest of the domain of C79."
 ],
 "C81": [
  "proved",
  ""
 ],
 "C82": [
  "proved",
  "Scalars of either float type and of every integer type."
 ],
 "C83": [
  "proved",
  ""
 ],
 "C84": [
  "proved",
  ""
 ],
 "C85": [
  "partial",
  "False of the code: the squares overflow or underflow (C85_counterexample). C85_zero_iff says exactly when the result is zero; C85_infinite and C85_finite bound the overflow within 3 parts in 2^p; C85_partial is the claim on the widest domain."
 ],
 "C86": [
  "proved",
  ""
 ],
 "C87": [
  "partial",
  "False of the code: infinite angles and angles beyond 2^(p+3) loop forever (C87_diverges); C87_partial covers all other angles but NaN, and C87_nan the NaN angle (no loop; the result is that of the external sine and cosine of NaN)."
 ],
 "C88": [
  "proved",
  ""
 ],
 "C89": [
  "proved",
  ""
 ],
 "C90": [
  "proved",
  ""
 ],
 "C91": [
  "proved",
  "All floats; equality up to the sign of zero is Flt.Same (Spec/FloatSame.lean)."
 ],
 "C92": [
  "proved",
  "All formats with at least single precision where rounding of constants matters; atan2 at y = -0 shown not odd (C92_atan2_zero)."
 ],
 "C93": [
  "proved",
  ""
 ],
 "C94": [
  "proved",
  "Constants for f32 and f64; identities for every format with at least single precision."
 ],
 "C95": [
  "proved",
  ""
 ],
 "C96": [
  "proved",
  "libm's floor and ceil are modelled exactly (trusted)."
 ],
 "C97": [
  "proved",
  "For all external functions meeting LibmWithin / CordicWithin; such functions exist."
 ],
 "C98": [
  "proved",
  "External root, arctangent and sincos enter by their accuracy."
 ],
 "C99": [
  "proved",
  "For all external functions meeting LibmWithin; such functions exist."
 ],
 "C100": [
  "proved",
  "For all external functions meeting LibmWithin / CordicWithin; such functions exist."
 ],
 "C101": [
  "proved",
  "Generic over the component type; readers also on exact reals."
 ],
 "C102": [
  "partial",
  "False of the code: a polar number made from a negative real, or scaled by one, has a negative magnitude (C102_counterexample); C102_exact gives the exact condition."
 ],
 "C103": [
  "proved",
  "Both overflow modes; exact panic condition of cos."
 ],
 "C104": [
  "proved",
  "Exact return and panic conditions with overflow checks; accuracy in both modes."
 ],
 "C105": [
  "partial",
  "False of the code: the square of x overflows for large x (C105_counterexample); C105_returns gives the exact condition, accuracy proved there."
 ],
 "C106": [
  "proved",
  "Negation on fixed point, exact reals and floats; addition on fixed point and exact reals (on floats each step rounds, so it is not exact)."
 ],
 "C107": [
  "proved",
  "Exact condition for panics with overflow checks, and an error bound for results that fit."
 ],
 "C108": [
  "proved",
  "Relative to accuracy hypotheses on the external CORDIC functions; such functions exist (fixedSinCosOn_exists)."
 ],
 "C109": [
  "proved",
  "Integers, fixed point; commutativity also for floats and reals."
 ],
 "C110": [
  "proved",
  "Relative to accuracy hypotheses on the external CORDIC functions."
 ],
 "C111": [
  "proved",
  "The methods call the routines of C49, C70, C65, C79, C30 and C75 with two Newton steps and the receiver as first argument."
 ],
 "C112": [
  "proved",
  "niirf with the i32 counter, all roundings; F>=8, F+4<=W<=128."
 ],
 "C113": [
  "proved",
  "exact outcome on integers and fixed point in both overflow modes; accuracy on fixed point with overflow checks"
 ],
 "C114": [
  "proved",
  "accuracy where the square of the divisor's real part is normal; behaviour at zero, on underflow and on overflow of that square"
 ],
 "C115": [
  "proved",
  "Found while completing C50: the absolute value of the most negative number wraps to itself, four times that is 0, and the normalisation loop never leaves 0. F >= 2. For to_polar and powi the arctangent is a parameter. C72 has the panics with overflow checks."
 ],
 "C116": [
  "proved",
  "Rendering of one unsigned integer in a base is modelled by its digits (core::fmt). LowerExp and UpperExp are covered by C61 with the component text as a parameter."
 ],
 "C117": [
  "proved",
  "The multi-line form assumes component texts of one line."
 ],
 "C118": [
  "proved",
  ""
 ],
 "C119": [
  "partial",
  "False: cosine of zero and sine of pi/2 exceed one by 3.5e-6, on the machine types too. Proved: excess below 3.6e-6, none for angles more than 0.0038 away from pi/2; C119_exact_partial: on the reals exactly where the angle is within pi/2 - c of the turning points (c = 1.568 to three places); on floats below 5.9e-6 (f32) and 3.62e-6 (f64), on fixed point at most 4e-6 plus 9 units in the last place."
 ],
 "C120": [
  "partial",
  "False across a boundary of the correction table, on the machine types too. Proved: monotone within a row of the table and for arguments at least 0.4% apart; on floats for arguments 0.4% apart, on fixed point with 16 fraction bits for arguments 1% apart and not below 1/1024."
 ],
 "C121": [
  "proved",
  ""
 ],
 "C122": [
  "proved",
  ""
 ],
 "C123": [
  "partial",
  "False on fixed point (counterexample in the last bit); integers proved. Fixed point: exact real part, exact condition for returning, exact deviation of the imaginary part."
 ],
 "C124": [
  "proved",
  ""
 ],
 "C125": [
  "partial",
  "False (counterexamples). Proved: distributive up to 1 ulp (re) and 2 ulp (im), associative up to the stated number of ulps."
 ],
 "C126": [
  "partial",
  "False of the code: += -= /= with a complex number and /= with a zero scalar store before they have computed everything. Proved: the operators that compute first (scalar += -=, polar *=) keep the number; exact state left by the others on integers and fixed point; equality of the store-by-store operators with the value models."
 ],
 "C127": [
  "proved",
  "Exact on reals; on fixed point and floats up to stated error bounds; symmetries exact."
 ],
 "C128": [
  "proved",
  "All flags without precision; the rendering of one component is a parameter with the stated properties."
 ],
 "C129": [
  "partial",
  "False of the code (rounding; counterexamples on f32). Proved: error bounds for both laws, and both laws exactly on whole numbers within the precision."
 ],
 "C130": [
  "proved",
  "Mono is stated with the types' own <=. Casts between integers wrap round, so that part asks for representable values; C130_int_int_wraps shows the condition is needed."
 ],
 "C131": [
  "proved",
  "Stated as SameOutcome of the two programs. C131_base_needs shows why the law for products asks for both sides to return."
 ],
 "C132": [
  "partial",
  "False of integers wider than the pointers with a negative exponent (C132_counterexample: 3.mixed_powi(-1) on i64), and on 16-bit targets. C132_nonneg: exponents from 0 on, every component type; C132_partial: all exponents on integers no wider than the pointers."
 ],
 "C133": [
  "partial",
  "False of the code for sin, cos and atan2: the products round towards minus infinity, so sin(-x) and -sin(x) can differ in the last units (C133_*_counterexample). Proved instead: bounds on the difference of 4 units for sin, 10 for cos (none where the shifted argument is not folded differently), and of the quotient's step for atan2 (C133_*_partial). Square and root are exactly even."
 ],
 "C134": [
  "proved",
  "As programs, so with panics and for any square root; float version for all values with NaN included as stated."
 ],
 "C135": [
  "proved",
  "The step budget of the model bounds the number of times each while loop evaluates its condition, so statements under every budget count passes. Multiplications of powi are counted with a type whose values count them."
 ],
 "C136": [
  "proved",
  ""
 ],
 "C137": [
  "proved",
  ""
 ],
 "C138": [
  "proved",
  "niirf, atan2, complex add, sub and mul; the range conditions on atan2 and mul keep squares and products normal."
 ],
 "C139": [
  "proved",
  "the three outcomes are those of the relation Agrees; crate cordic enters through hypothesis CordicAlike, met by stand-in functions in an example"
 ],
 "C140": [
  "partial",
  "False of the code for '/': C140_div_counterexample (C07: the divisor's imaginary part is never read). Proved for '+', '-' and '*'."
 ],
 "C141": [
  "proved",
  "Integers, fixed point, both build modes; cordic as a parameter."
 ],
 "C142": [
  "proved",
  "The crate's own functions and what goes through libm; niirf's counter in debug builds is the stated exception (C71)."
 ],
 "C143": [
  "proved",
  "All component types, both overflow modes. On floats (z + w) - w is not z in general; the error bound and a loss of all digits are proved."
 ],
 "C144": [
  "proved",
  "Integers and fixed point in debug builds; the failure after a wrapped product in release builds is shown. Floats with error bounds."
 ],
 "C145": [
  "proved",
  "Reals, floats and fixed point for the sine; reals and floats for the arctangent. C145_atan_sharp: 0.81 % would be false."
 ],
 "C146": [
  "proved",
  "Fixed point and exact reals (the mirror image on reals is C37_mirror). On floats the shift by a turn rounds, so the period is not exact there."
 ],
 "C147": [
  "proved",
  "reals: Props/Octants; fixed point and floats bit for bit; the diagonal exception is part of the statement"
 ],
 "C148": [
  "proved",
  "C148_fixed_not_exact shows that the two sides need not be equal"
 ],
 "C149": [
  "proved",
  "Reals; floats with the external logarithm and exponential entering by their accuracy only where stated."
 ],
 "C150": [
  "proved",
  "Exact integer argument for every number of fraction bits; the release-build version lists the overflow conditions."
 ],
 "C151": [
  "partial",
  "False: concrete pairs in the wrong order for I32-with-12-fraction-bits and f32. Proved instead: wrong by at most 9 units in the last place on fixed point (rising and falling part), by 13*2^-p on floats, arctangent by 24*2^-p; strictly in order between -1 and 1 for numbers 18 units (25*2^-p) apart."
 ],
 "C152": [
  "proved",
  "associativity of wrapped integers fails only where C152_assoc_counterexample shows, as the statement says"
 ],
 "C153": [
  "proved",
  "relative to the accuracy of the external sincos; such functions exist (C88, C97)"
 ],
 "C154": [
  "proved",
  "relative to the symmetry of the external functions (Spec/Symmetric.lean), which is satisfiable"
 ],
 "C155": [
  "proved",
  "relative to accuracy or symmetry hypotheses on the external CORDIC functions"
 ],
 "C156": [
  "proved",
  ""
 ],
 "C157": [
  "proved",
  "For x below a quarter and 4^j x of at least one, the two parts compose at the multiple that lies in [1/4, 1)."
 ],
 "C158": [
  "proved",
  "Relative to accuracy hypotheses on the external functions; such functions exist (libmWithin_exists, cordicWithin_exists)."
 ],
 "C159": [
  "partial",
  "False of the code: sqrt(1) is about 1.00075 on f32, f64 and I16F16 (C159_counterexample_sqrt), and cos(0) is larger than 1 on the reals, on f32, f64 and with ten fraction bits (C159_counterexample_cos, _cos_real). Proved exactly: everything else in the statement, on all signed fixed-point types with three (axes) or twenty (zero) integer bits to spare, both modes, and on all floats as wide as f32; on floats the sine of a zero and the origin are exact up to the sign of the zero, and the magnitude of a zero is the external square root of positive zero."
 ],
 "C160": [
  "proved",
  "Proved on the reals without any slack, on fixed point in both modes (nine and eleven units, which come from the 4.7-unit rounding bound of each sine), and on floats."
 ],
 "C161": [
  "partial",
  "False of the code: at 1 and -1 the two pieces of the polynomial do not meet and the result jumps by pi/2 - 64/41 (C161_counterexample_*). Proved: never decreasing, and rising by at most y - x plus that jump for each of 1 and -1 passed, on reals, floats and fixed point (up to rounding)."
 ],
 "C162": [
  "partial",
  "False of the code on fixed point, where the root is an estimate: C162_counterexample_fixed. Proved on the reals, and on floats bit for bit with a correctly rounded root (C162_float_partial, C162_idempotent_partial) while the square is a normal number. Outside that range it is false too (C85)."
 ],
 "C163": [
  "partial",
  "False of the code on fixed point: C163_counterexample_fixed (magnitude below the part, and out of order). Proved on the reals; on fixed point up to the error of the magnitude; on floats with a correctly rounded root exactly, while the squares are normal numbers and do not overflow."
 ],
 "C164": [
  "proved",
  "The loop is a fold of the modelled operator over a list of any length. Both overflow modes, reals, floats."
 ],
 "C165": [
  "partial",
  "False of the code, because += computes the imaginary part from the real part (C05): C165_counterexample. The _partial theorems say exactly what the loop leaves, on every component type, and on the reals exactly when that is the sum."
 ],
 "C166": [
  "proved",
  "Integers exact, fixed point and floats with error bounds growing with the number of terms, release builds by agreement with debug builds."
 ],
 "C167": [
  "proved",
  "Fixed point (exact modulo the type's turn, drift against the real circle, tone), exact reals, floats (drift per step, tone)."
 ],
 "C168": [
  "partial",
  "False: += loses a NaN in the left imaginary part, / ignores the divisor's imaginary part, a polar product with magnitude zero, division by the number zero and atan2 beside a zero drop a NaN (C168_counterexample). Proved: exactly when the basic operations give NaN, and that every other operand is passed on as NaN."
 ],
 "C169": [
  "proved",
  "The loop is a specification-side fold; the crate itself has no Product."
 ],
 "C170": [
  "proved",
  ""
 ],
 "C171": [
  "proved",
  "exact on reals; on fixed point and floats within the accumulated error of the steps, given the error of the external sincos; equivalence with multiplying by the converted factors holds for every component type"
 ],
 "C172": [
  "proved",
  "Existence of the result on fixed point is proved for signed types and factors of magnitude at most one; accuracy for every type. C172_release_angle shows what a release build does with an angle that overflows."
 ],
 "C173": [
  "proved",
  "Reals exact, with the Fourier transform of a tone; fixed point and floats with error bounds; release builds by agreement with debug builds."
 ],
 "C174": [
  "proved",
  "one trip from C89 and C90; library functions enter with stated errors"
 ],
 "C175": [
  "proved",
  "The external arctangent enters with a stated error."
 ],
 "C176": [
  "proved",
  "Relative to accuracy hypotheses on the external functions; such functions exist (libmWithin_exists, cordicWithin_exists)."
 ],
 "C177": [
  "proved",
  "Exact reals: the operators used together compute the transform. The error of a single bin on fixed point and floats is C173."
 ],
 "C178": [
  "proved",
  "Signs are read off comparisons with zero, or off the sign flag for zeros."
 ],
 "C179": [
  "proved",
  "An f64 constant -0 is excluded on floats; the code has none."
 ]
}