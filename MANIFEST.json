{
 "claims": [
  {
   "property": "C01",
   "status": "proved",
   "theorems": [
    "MixedNum.C01_add_int",
    "MixedNum.C01_sub_int",
    "MixedNum.C01_add_fixed",
    "MixedNum.C01_sub_fixed",
    "MixedNum.C01_free_functions"
   ],
   "note": "Integers and fixed point in both overflow modes, and the free functions."
  },
  {
   "property": "C02",
   "status": "proved",
   "theorems": [
    "MixedNum.C02_checked_exact",
    "MixedNum.C02_checked_returns_iff",
    "MixedNum.C02_checked_total",
    "MixedNum.C02_wrapping",
    "MixedNum.C02_real"
   ],
   "note": "Checked and wrapping integers, and exact reals."
  },
  {
   "property": "C03",
   "status": "proved",
   "theorems": [
    "MixedNum.C03_generic",
    "MixedNum.C03_int",
    "MixedNum.C03_fixed",
    "MixedNum.C03_float",
    "MixedNum.C03_real"
   ],
   "note": "All component types."
  },
  {
   "property": "C04",
   "status": "proved",
   "theorems": [
    "MixedNum.C04_add_assoc",
    "MixedNum.C04_add_comm",
    "MixedNum.C04_mul_assoc",
    "MixedNum.C04_distrib",
    "MixedNum.C04_zero",
    "MixedNum.C04_one"
   ],
   "note": "Wrapping integers of every width."
  },
  {
   "property": "C05",
   "status": "partial",
   "theorems": [
    "MixedNum.C05_counterexample",
    "MixedNum.C05_counterexample_f32",
    "MixedNum.C05_ignores_imaginary_part",
    "MixedNum.C05_partial",
    "MixedNum.C05_real_part_partial",
    "MixedNum.C05_exact",
    "MixedNum.C05_exact_wrapping",
    "MixedNum.C05_exact_int",
    "MixedNum.C05_exact_fixed"
   ],
   "note": "The property is false: `+=` computes the imaginary part from the updated real part. C05_counterexample refutes it; C05_exact, C05_exact_int and C05_exact_fixed say exactly when the two forms agree (z.im is the sum of the real parts, in the machine's arithmetic)."
  },
  {
   "property": "C06",
   "status": "partial",
   "theorems": [
    "MixedNum.C06_counterexample",
    "MixedNum.C06_self_not_zero",
    "MixedNum.C06_ignores_imaginary_part",
    "MixedNum.C06_partial",
    "MixedNum.C06_exact",
    "MixedNum.C06_real_part_partial",
    "MixedNum.C06_exact_int",
    "MixedNum.C06_exact_fixed"
   ],
   "note": "The property is false, as for C05. C06_counterexample refutes it; C06_exact, C06_exact_int and C06_exact_fixed say exactly when the two forms agree."
  },
  {
   "property": "C07",
   "status": "partial",
   "theorems": [
    "MixedNum.C07_counterexample",
    "MixedNum.C07_panics_on_imaginary_divisor",
    "MixedNum.C07_counterexample_int",
    "MixedNum.C07_ignores_imaginary_part",
    "MixedNum.C07_actual",
    "MixedNum.C07_partial",
    "MixedNum.C07_exact"
   ],
   "note": "The property is false: the divisor's imaginary part is never read. C07_counterexample refutes it, C07_actual gives what is computed, C07_exact says exactly when the quotient is right."
  },
  {
   "property": "C08",
   "status": "proved",
   "theorems": [
    "MixedNum.C08_division_entry_points"
   ],
   "note": "All component types."
  },
  {
   "property": "C09",
   "status": "proved",
   "theorems": [
    "MixedNum.C09_generic",
    "MixedNum.C09_conversion_panics",
    "MixedNum.C09_real",
    "MixedNum.C09_int"
   ],
   "note": "All component types."
  },
  {
   "property": "C10",
   "status": "proved",
   "theorems": [
    "MixedNum.C10_add",
    "MixedNum.C10_sub",
    "MixedNum.C10_assign",
    "MixedNum.C10_int",
    "MixedNum.C10_real"
   ],
   "note": "All component types."
  },
  {
   "property": "C11",
   "status": "proved",
   "theorems": [
    "MixedNum.C11_int_zero",
    "MixedNum.C11_int_float_zero",
    "MixedNum.C11_fixed_zero",
    "MixedNum.C11_float_zero",
    "MixedNum.C11_nonzero",
    "MixedNum.C11_free_function_int",
    "MixedNum.C11_real",
    "MixedNum.C11_float_int_zero",
    "MixedNum.C11_free_function_fixed",
    "MixedNum.C11_free_function_float"
   ],
   "note": "Integers, fixed point, floats and exact reals, by integer and float zeros; the operator and the free function div_scalar_cartesian."
  },
  {
   "property": "C12",
   "status": "partial",
   "theorems": [
    "MixedNum.C12_counterexample_int",
    "MixedNum.C12_counterexample_f64",
    "MixedNum.C12_partial",
    "MixedNum.C12_counterexample_fixed",
    "MixedNum.C12_counterexample_float"
   ],
   "note": "The property is false at zero, on every element type (C12_counterexample_int, _f64, _fixed, _float). C12_partial proves it for every other scalar."
  },
  {
   "property": "C13",
   "status": "proved",
   "theorems": [
    "MixedNum.C13_div_by_zero_iff",
    "MixedNum.C13_float",
    "MixedNum.C13_half",
    "MixedNum.C13_other_panic",
    "MixedNum.C13_overflow_iff"
   ],
   "note": "Exact panic condition for integer components."
  },
  {
   "property": "C14",
   "status": "proved",
   "theorems": [
    "MixedNum.C14_fixed_min",
    "MixedNum.C14_real",
    "MixedNum.C14_involutive",
    "MixedNum.C14_mul",
    "MixedNum.C14_add",
    "MixedNum.C14_norm",
    "MixedNum.C14_int",
    "MixedNum.C14_fixed",
    "MixedNum.C14_mul_wrapping",
    "MixedNum.C14_add_wrapping",
    "MixedNum.C14_involutive_wrapping",
    "MixedNum.C14_involutive_checked",
    "MixedNum.C14_hom_checked"
   ],
   "note": "Exact reals; integers in both modes; fixed point (multiplication there is C123)."
  },
  {
   "property": "C15",
   "status": "proved",
   "theorems": [
    "MixedNum.C15_polar_conj",
    "MixedNum.C15_cartesian_conj_polar",
    "MixedNum.C15_generic"
   ],
   "note": "Exact reals; the generic shape for every signed type."
  },
  {
   "property": "C16",
   "status": "proved",
   "theorems": [
    "MixedNum.C16_round_trip",
    "MixedNum.C16_to_polar",
    "MixedNum.C16_zero",
    "MixedNum.C16_negative_axis"
   ],
   "note": "Exact reals."
  },
  {
   "property": "C17",
   "status": "proved",
   "theorems": [
    "MixedNum.C17_normalises",
    "MixedNum.C17_round_trip",
    "MixedNum.C17_zero"
   ],
   "note": "Exact reals."
  },
  {
   "property": "C18",
   "status": "proved",
   "theorems": [
    "MixedNum.C18_sincos_argument",
    "MixedNum.C18_turns",
    "MixedNum.C18_real",
    "MixedNum.C18_sincos_argument_real"
   ],
   "note": "Signed fixed point with at least four integer bits (both overflow modes) and exact reals, for an arbitrary sine/cosine routine."
  },
  {
   "property": "C19",
   "status": "proved",
   "theorems": [
    "MixedNum.C19_entry_points",
    "MixedNum.C19_mixed_abs_im",
    "MixedNum.C19_to_polar",
    "MixedNum.C19_real",
    "MixedNum.C19_to_polar_failure"
   ],
   "note": "All component types; exact reals for the modulus."
  },
  {
   "property": "C20",
   "status": "proved",
   "theorems": [
    "MixedNum.C20_polar_polar",
    "MixedNum.C20_polar_cartesian",
    "MixedNum.C20_polar_scalar",
    "MixedNum.C20_cartesian_polar"
   ],
   "note": "Exact reals."
  },
  {
   "property": "C21",
   "status": "proved",
   "theorems": [
    "MixedNum.C21_generic",
    "MixedNum.C21_fixed",
    "MixedNum.C21_int",
    "MixedNum.C21_float",
    "MixedNum.C21_real"
   ],
   "note": "Fixed point, integers, floats, exact reals."
  },
  {
   "property": "C22",
   "status": "proved",
   "theorems": [
    "MixedNum.C22_int_nonzero",
    "MixedNum.C22_fixed_nonzero",
    "MixedNum.C22_generic",
    "MixedNum.C22_fixed_zero",
    "MixedNum.C22_int",
    "MixedNum.C22_fixed",
    "MixedNum.C22_float",
    "MixedNum.C22_real",
    "MixedNum.C22_float_nonzero"
   ],
   "note": "Fixed point, integers, floats, exact reals."
  },
  {
   "property": "C23",
   "status": "proved",
   "theorems": [
    "MixedNum.C23_exp",
    "MixedNum.C23_homomorphism",
    "MixedNum.C23_zero",
    "MixedNum.C23_modulus"
   ],
   "note": "Exact reals."
  },
  {
   "property": "C24",
   "status": "proved",
   "theorems": [
    "MixedNum.C24_powi",
    "MixedNum.C24_recursion",
    "MixedNum.C24_bound_needed"
   ],
   "note": "Exact reals, every exponent below 2^31; C24_bound_needed shows the bound is needed."
  },
  {
   "property": "C25",
   "status": "proved",
   "theorems": [
    "MixedNum.C25_int_powi",
    "MixedNum.C25_zero_exponent",
    "MixedNum.C25_trigonometry_powi"
   ],
   "note": "mixed_powi on integers for exponents in the i32 range (C25_int_powi), the generic powi for every exponent (C25_trigonometry_powi), and the zero exponent."
  },
  {
   "property": "C26",
   "status": "proved",
   "theorems": [
    "MixedNum.C26_panics",
    "MixedNum.C26_units",
    "MixedNum.C26_wrapping",
    "MixedNum.C26_wrapping_odd"
   ],
   "note": "Negative exponents are reinterpreted as 2^64+exp; behaviour proved in both modes."
  },
  {
   "property": "C27",
   "status": "proved",
   "theorems": [
    "MixedNum.C27_sign_int",
    "MixedNum.C27_sign_unsigned",
    "MixedNum.C27_sign_mul_abs_int",
    "MixedNum.C27_sign_fixed",
    "MixedNum.C27_sign_fixed_unsigned",
    "MixedNum.C27_sign_mul_abs_fixed",
    "MixedNum.C27_real"
   ],
   "note": "sign for integers, fixed point and reals; sign times abs gives the value back."
  },
  {
   "property": "C28",
   "status": "proved",
   "theorems": [
    "MixedNum.C28_abs_int",
    "MixedNum.C28_abs_fixed",
    "MixedNum.C28_in_range_iff",
    "MixedNum.C28_min_wrapping",
    "MixedNum.C28_min_checked",
    "MixedNum.C28_abs_unsigned"
   ],
   "note": "abs for integers and fixed point including the minimum value in both modes."
  },
  {
   "property": "C29",
   "status": "proved",
   "theorems": [
    "MixedNum.C29_exclusive_int",
    "MixedNum.C29_exclusive_fixed",
    "MixedNum.C29_signed",
    "MixedNum.C29_unsigned",
    "MixedNum.C29_float"
   ],
   "note": "is_positive/is_negative exclusivity for integers, fixed point and floats."
  },
  {
   "property": "C30",
   "status": "proved",
   "theorems": [
    "MixedNum.C30_wrap_fixed",
    "MixedNum.C30_unique"
   ],
   "note": "Every width and fraction with at least four integer bits, both overflow modes."
  },
  {
   "property": "C31",
   "status": "proved",
   "theorems": [
    "MixedNum.C31_identity_fixed",
    "MixedNum.C31_idempotent_fixed",
    "MixedNum.C31_identity_real",
    "MixedNum.C31_idempotent_real"
   ],
   "note": "Fixed point and exact reals."
  },
  {
   "property": "C32",
   "status": "partial",
   "theorems": [
    "MixedNum.C32_counterexample",
    "MixedNum.C32_partial"
   ],
   "note": "The property is false with overflow checks on: C32_counterexample. C32_partial proves it for every supported type with checks off."
  },
  {
   "property": "C33",
   "status": "proved",
   "theorems": [
    "MixedNum.C33_wrap_real",
    "MixedNum.C33_unique",
    "MixedNum.C33_same_point"
   ],
   "note": "Exact reals."
  },
  {
   "property": "C34",
   "status": "partial",
   "theorems": [
    "MixedNum.C34_terminates_partial",
    "MixedNum.C34_nan",
    "MixedNum.C34_diverges",
    "MixedNum.C34_f32",
    "MixedNum.C34_f64",
    "MixedNum.C34_counterexample"
   ],
   "note": "False: diverges exactly on infinities and magnitudes above 2^(p+3) (C34_f32, C34_f64, witness 1e9f32). Termination and range proved for all other inputs, for every binary format."
  },
  {
   "property": "C35",
   "status": "proved",
   "theorems": [
    "MixedNum.C35_sin",
    "MixedNum.C35_outside"
   ],
   "note": "Exact real arithmetic; C35_outside shows that the interval matters."
  },
  {
   "property": "C36",
   "status": "proved",
   "theorems": [
    "MixedNum.C36_cos"
   ],
   "note": "Exact real arithmetic, every real argument."
  },
  {
   "property": "C37",
   "status": "proved",
   "theorems": [
    "MixedNum.C37_odd",
    "MixedNum.C37_mirror",
    "MixedNum.C37_bounded",
    "MixedNum.C37_zero"
   ],
   "note": "Exact real arithmetic."
  },
  {
   "property": "C38",
   "status": "partial",
   "theorems": [
    "MixedNum.C38_release_accuracy_cos",
    "MixedNum.C38_sin_partial",
    "MixedNum.C38_release_returns",
    "MixedNum.C38_release_accuracy",
    "MixedNum.C38_release_counterexample",
    "MixedNum.C38_counterexample",
    "MixedNum.C38_wrapping_counterexample"
   ],
   "note": "The property is false: 9! = 362880 does not fit a type with fewer than 20 integer bits. C38_counterexample: in checked builds sin then panics for every argument; C38_wrapping_counterexample: with at most 7 integer bits it divides by zero in wrapping builds as well; C38_sin_partial: with at least 20 integer bits sin and cos return. Without overflow checks they also return with 8 to 19 integer bits (C38_release_returns); with 16 to 19 of them the result is within 0.0023 + 7/2^F of the true sine (C38_release_accuracy) and within 0.0024 + 9/2^F of the cosine (C38_release_accuracy_cos), and the loss is real: sin(pi/2) is 217/256 with 8.8 bits and exceeds 1 with 14.18 bits (C38_release_counterexample)."
  },
  {
   "property": "C39",
   "status": "proved",
   "theorems": [
    "MixedNum.C39_sin",
    "MixedNum.C39_sin_real",
    "MixedNum.C39_cos"
   ],
   "note": "All rounding included, both overflow modes; the sine (7 units in the last place) and the cosine (9)."
  },
  {
   "property": "C40",
   "status": "proved",
   "theorems": [
    "MixedNum.C40_accuracy",
    "MixedNum.C40_decimal",
    "MixedNum.C40_sharp",
    "MixedNum.C40_axes"
   ],
   "note": "Exact real arithmetic; the bound is sharp (C40_sharp)."
  },
  {
   "property": "C41",
   "status": "partial",
   "theorems": [
    "MixedNum.C41_counterexample",
    "MixedNum.C41_near_axes_partial",
    "MixedNum.C41_exact_partial",
    "MixedNum.C41_counterexample_machine"
   ],
   "note": "The property is false: on the diagonals the error is 0.28 degrees (C41_counterexample; C41_counterexample_machine on f32, f64 and I16F16). C41_near_axes_partial: the documented bound holds where one coordinate is at most a fifth of the other. C41_exact_partial: it holds exactly where the smaller coordinate is at most 0.219 of the larger or between 0.8926 and 0.9163 of it (the three limits exist and are given to three places)."
  },
  {
   "property": "C42",
   "status": "proved",
   "theorems": [
    "MixedNum.C42_quadrant"
   ],
   "note": "Exact real arithmetic."
  },
  {
   "property": "C43",
   "status": "partial",
   "theorems": [
    "MixedNum.C43_counterexample",
    "MixedNum.C43_min_counterexample",
    "MixedNum.C43_partial",
    "MixedNum.C43_exact"
   ],
   "note": "The property is false: for tiny non-zero coordinates the denominator rounds to zero (C43_counterexample), and the most negative number overflows in checked builds (C43_min_counterexample). C43_partial and C43_exact: where it does return."
  },
  {
   "property": "C44",
   "status": "proved",
   "theorems": [
    "MixedNum.C44_def",
    "MixedNum.C44_accuracy",
    "MixedNum.C44_odd"
   ],
   "note": "Definition for every component type; accuracy and oddness with exact real arithmetic."
  },
  {
   "property": "C45",
   "status": "proved",
   "theorems": [
    "MixedNum.C45_accuracy",
    "MixedNum.C45_zero"
   ],
   "note": "Relative error at most 9.96e-4."
  },
  {
   "property": "C46",
   "status": "partial",
   "theorems": [
    "MixedNum.C46_counterexample",
    "MixedNum.C46_partial",
    "MixedNum.C46_exact_partial",
    "MixedNum.C46_counterexample_machine"
   ],
   "note": "Documented bound is false with two iterations (witness 0.708^2; C46_counterexample_machine: the root of 1/2 on f32, f64 and I16F16); proved 7.2e-4 with two and 5e-4 with three or more. C46_exact_partial says exactly where two iterations meet the documented bound: outside of four intervals, starting at 7/16, 1/2, 9/16 and 5/8."
  },
  {
   "property": "C47",
   "status": "proved",
   "theorems": [
    "MixedNum.C47_neg",
    "MixedNum.C47_scale"
   ],
   "note": ""
  },
  {
   "property": "C48",
   "status": "proved",
   "theorems": [
    "MixedNum.C48_rate",
    "MixedNum.C48_tendsto"
   ],
   "note": "Factor ten per iteration, and convergence."
  },
  {
   "property": "C49",
   "status": "proved",
   "theorems": [
    "MixedNum.C49_accuracy",
    "MixedNum.C49_fine",
    "MixedNum.C49_negative",
    "MixedNum.C49_zero"
   ],
   "note": "All rounding included, both overflow modes. Reworded once: the first wording had no 2^-F relative term, but rounding in the normalised range is scaled up with the root, so the error is not a fixed number of units in the last place. C49_fine has smaller constants for 8 or more fraction bits."
  },
  {
   "property": "C50",
   "status": "partial",
   "theorems": [
    "MixedNum.C50_counterexample",
    "MixedNum.C50_normalised_partial",
    "MixedNum.C50_domain",
    "MixedNum.C50_release",
    "MixedNum.C50_partial",
    "MixedNum.C50_one_bit_partial"
   ],
   "note": "The property is false for types with F = W-3: the literal 4 does not fit, so checked builds panic for every argument outside [0.25, 1) (C50_counterexample; C50_domain is the exact domain). C50_partial proves it for all other signed types of at least 8 bits. Without overflow checks the literal is -4 (C50_release): the call returns, the root is right for numbers in 16^-i [1/4, 1), and zero or negative for numbers in 16^-i [1, 4)."
  },
  {
   "property": "C51",
   "status": "partial",
   "theorems": [
    "MixedNum.C51_release_returns",
    "MixedNum.C51_release_wrong",
    "MixedNum.C51_counterexample",
    "MixedNum.C51_partial",
    "MixedNum.C51_exact_partial"
   ],
   "note": "The property is false in checked builds: x - y^2 underflows on large parts of the range (C51_counterexample, at least 12 fraction bits). C51_exact_partial says exactly for which arguments a checked build returns and for which it panics, on every unsigned type with two fraction and three integer bits. C51_partial: on 4^K * [0.333, 0.855] it returns, with the accuracy of C49. Without overflow checks it returns on every supported type (C51_release_returns), but for numbers below 1 in the panicking ranges the result is off by more than a fifth of the root (C51_release_wrong)."
  },
  {
   "property": "C52",
   "status": "partial",
   "theorems": [
    "MixedNum.C52_counterexample_signed",
    "MixedNum.C52_counterexample_unsigned",
    "MixedNum.C52_counterexample_int",
    "MixedNum.C52_zero_partial"
   ],
   "note": "The property is false: without fraction bits, and on integers, the result is 0 for every positive argument (the three counterexample theorems). Only the root of 0 is right (C52_zero_partial)."
  },
  {
   "property": "C53",
   "status": "proved",
   "theorems": [
    "MixedNum.C53_mag",
    "MixedNum.C53_pow",
    "MixedNum.C53_mag_inv",
    "MixedNum.C53_pow_inv",
    "MixedNum.C53_square"
   ],
   "note": "Exact real arithmetic."
  },
  {
   "property": "C54",
   "status": "proved",
   "theorems": [
    "MixedNum.C54_exact",
    "MixedNum.C54_reduces",
    "MixedNum.C54_to_num",
    "MixedNum.C54_round_trip",
    "MixedNum.C54_widening"
   ],
   "note": "Integer to integer conversions."
  },
  {
   "property": "C55",
   "status": "proved",
   "theorems": [
    "MixedNum.C55_from_int",
    "MixedNum.C55_to_int",
    "MixedNum.C55_to_int_outcome",
    "MixedNum.C55_round_trip"
   ],
   "note": "Integer to fixed and back; floor semantics of fixed to integer."
  },
  {
   "property": "C56",
   "status": "proved",
   "theorems": [
    "MixedNum.C56_componentwise",
    "MixedNum.C56_panics",
    "MixedNum.C56_real_float",
    "MixedNum.C56_real_fixed",
    "MixedNum.C56_to_complex",
    "MixedNum.C56_polar",
    "MixedNum.C56_panics_all"
   ],
   "note": "Cartesian, polar and real conversions."
  },
  {
   "property": "C57",
   "status": "proved",
   "theorems": [
    "MixedNum.C57_int",
    "MixedNum.C57_fixed",
    "MixedNum.C57_cartesian_int",
    "MixedNum.C57_cartesian_fixed",
    "MixedNum.C57_real",
    "MixedNum.C57_polar_real"
   ],
   "note": "Zero and one identities for integers, fixed point, Cartesian forms and exact reals. Floats are covered by C94."
  },
  {
   "property": "C58",
   "status": "proved",
   "theorems": [
    "MixedNum.C58_pi"
   ],
   "note": "Every supported type, any number of fraction bits, with 2^-52 instead of 2^-51."
  },
  {
   "property": "C59",
   "status": "partial",
   "theorems": [
    "MixedNum.C59_counterexample",
    "MixedNum.C59_wrapping",
    "MixedNum.C59_tau_partial"
   ],
   "note": "False for signed types with F = W-3: counterexample in checked builds and the wrong value in wrapping builds. Proved for all other supported types."
  },
  {
   "property": "C60",
   "status": "proved",
   "theorems": [
    "MixedNum.C60_reads",
    "MixedNum.C60_round_trip",
    "MixedNum.C60_checked",
    "MixedNum.C60_injective"
   ],
   "note": "All Cartesian integers that print; injective in both modes including the smallest value; without checks the smallest value reads back as its negation (C60_reads)."
  },
  {
   "property": "C61",
   "status": "proved",
   "theorems": [
    "MixedNum.C61_layout",
    "MixedNum.C61_int",
    "MixedNum.C61_real"
   ],
   "note": "Any component type given |re|, |im| (C61_layout); integers and exact reals in full."
  },
  {
   "property": "C62",
   "status": "partial",
   "theorems": [
    "MixedNum.C62_counterexample",
    "MixedNum.C62_partial",
    "MixedNum.C62_wrapping"
   ],
   "note": "False for the smallest signed value in checked builds (counterexample); proved everywhere else."
  },
  {
   "property": "C63",
   "status": "proved",
   "theorems": [
    "MixedNum.C63_num_complex",
    "MixedNum.C63_real"
   ],
   "note": "All component types."
  },
  {
   "property": "C64",
   "status": "proved",
   "theorems": [
    "MixedNum.C64_order",
    "MixedNum.C64_int",
    "MixedNum.C64_fixed",
    "MixedNum.C64_components",
    "MixedNum.C64_le"
   ],
   "note": "Integers, fixed point, and any component type compared like a linear order."
  },
  {
   "property": "C65",
   "status": "proved",
   "theorems": [
    "MixedNum.C65_accuracy",
    "MixedNum.C65_axes"
   ],
   "note": "All rounding included, both overflow modes."
  },
  {
   "property": "C66",
   "status": "proved",
   "theorems": [
    "MixedNum.C66_reads",
    "MixedNum.C66_injective",
    "MixedNum.C66_generic"
   ],
   "note": "Integers: the printed text parses back, for every value; generic: for every injective rendering without the angle sign. Component rendering is a parameter except decimal integers."
  },
  {
   "property": "C67",
   "status": "proved",
   "theorems": [
    "MixedNum.C67_exact",
    "MixedNum.C67_nearest",
    "MixedNum.C67_mono",
    "MixedNum.C67_truncates",
    "MixedNum.C67_special",
    "MixedNum.C67_widening",
    "MixedNum.C67_rounds",
    "MixedNum.C67_mono_all",
    "MixedNum.C67_u128"
   ],
   "note": "Rust as-cast semantics (saturating float to integer, nearest-even integer to float) are part of the trusted reading of the model; every integer width including 128 bits."
  },
  {
   "property": "C68",
   "status": "proved",
   "theorems": [
    "MixedNum.C68_exact",
    "MixedNum.C68_nearest",
    "MixedNum.C68_nonfinite",
    "MixedNum.C68_bound_needed"
   ],
   "note": "from_num/to_num of the fixed crate are modelled from its documentation; C68_bound_needed shows why wide types are excluded from the exact round trip."
  },
  {
   "property": "C69",
   "status": "proved",
   "theorems": [
    "MixedNum.C69_int",
    "MixedNum.C69_fixed",
    "MixedNum.C69_float"
   ],
   "note": "Integers, fixed point and both float formats."
  },
  {
   "property": "C70",
   "status": "proved",
   "theorems": [
    "MixedNum.C70_accuracy",
    "MixedNum.C70_f32",
    "MixedNum.C70_f64",
    "MixedNum.C70_zero"
   ],
   "note": "For every valid finite float of a format at least as wide as f32, with all roundings of the model; instances for f32 and f64."
  },
  {
   "property": "C71",
   "status": "partial",
   "theorems": [
    "MixedNum.C71_counterexample",
    "MixedNum.C71_counterexample_debug",
    "MixedNum.C71_counterexample_passes",
    "MixedNum.C71_nan_partial",
    "MixedNum.C71_partial"
   ],
   "note": "False: on the infinities the normalising loop never ends in a release build (C71_counterexample); in a debug build its i32 counter overflows after 2^31 passes (C71_counterexample_debug). C71_partial: every other float gives a result, NaN included."
  },
  {
   "property": "C72",
   "status": "proved",
   "theorems": [
    "MixedNum.C72_overflow",
    "MixedNum.C72_accuracy",
    "MixedNum.C72_relative",
    "MixedNum.C72_underflow"
   ],
   "note": "With all roundings, for signed types with F>=2, W>=8, F+4<=W; the panic condition for every type."
  },
  {
   "property": "C73",
   "status": "proved",
   "theorems": [
    "MixedNum.C73_checked_exact",
    "MixedNum.C73_checked_domain",
    "MixedNum.C73_accuracy",
    "MixedNum.C73_wrapping"
   ],
   "note": "Exact results, exact domain, rounding error and wrap-around."
  },
  {
   "property": "C74",
   "status": "proved",
   "theorems": [
    "MixedNum.C74_accuracy",
    "MixedNum.C74_zero"
   ],
   "note": "By induction on the exponent, both overflow modes, signed and unsigned."
  },
  {
   "property": "C75",
   "status": "proved",
   "theorems": [
    "MixedNum.C75_accuracy",
    "MixedNum.C75_near"
   ],
   "note": "error of the repeated rounded subtraction bounded through a loop invariant; every binary format with 24..60 bits of precision"
  },
  {
   "property": "C76",
   "status": "proved",
   "theorems": [
    "MixedNum.C76_accuracy",
    "MixedNum.C76_f32",
    "MixedNum.C76_f64",
    "MixedNum.C76_nan"
   ],
   "note": "every binary format with 24..60 bits"
  },
  {
   "property": "C77",
   "status": "proved",
   "theorems": [
    "MixedNum.C77_accuracy",
    "MixedNum.C77_f32",
    "MixedNum.C77_f64"
   ],
   "note": "every binary format with 24..60 bits"
  },
  {
   "property": "C78",
   "status": "partial",
   "theorems": [
    "MixedNum.C78_diverges",
    "MixedNum.C78_partial",
    "MixedNum.C78_f32",
    "MixedNum.C78_f64",
    "MixedNum.C78_counterexample"
   ],
   "note": "False: cos never returns exactly for infinities and magnitudes above 2^(p+3) (2^27 for f32, 2^56 for f64), C78_f32/C78_f64; terminates everywhere else (C78_partial)"
  },
  {
   "property": "C79",
   "status": "proved",
   "theorems": [
    "MixedNum.C79_accuracy",
    "MixedNum.C79_f32",
    "MixedNum.C79_f64",
    "MixedNum.C79_atan",
    "MixedNum.C79_axes"
   ],
   "note": "within the domain where the squares neither overflow nor underflow; the rest is C80"
  },
  {
   "property": "C80",
   "status": "partial",
   "theorems": [
    "MixedNum.C80_diagonal",
    "MixedNum.C80_counterexample",
    "MixedNum.C80_partial",
    "MixedNum.C80_nan_iff",
    "MixedNum.C80_off",
    "MixedNum.C80_nonfinite"
   ],
   "note": "False of the code: C80_nan_iff says exactly for which finite floats atan2 gives NaN (both non-zero, and the product overflows or both squares vanish), C80_nonfinite what happens at infinities and NaN (NaN unless the other operand is zero); f32 witnesses, and C80_off a finite result more than 0.77 rad away from the angle. The partial covers the rest of the domain of C79."
  },
  {
   "property": "C81",
   "status": "proved",
   "theorems": [
    "MixedNum.C81_accuracy",
    "MixedNum.C81_negative",
    "MixedNum.C81_whole",
    "MixedNum.C81_zero_one"
   ],
   "note": ""
  },
  {
   "property": "C82",
   "status": "proved",
   "theorems": [
    "MixedNum.C82_determined",
    "MixedNum.C82_add",
    "MixedNum.C82_sub",
    "MixedNum.C82_scalar",
    "MixedNum.C82_scalar_int"
   ],
   "note": "Scalars of either float type and of every integer type."
  },
  {
   "property": "C83",
   "status": "proved",
   "theorems": [
    "MixedNum.C83_accuracy",
    "MixedNum.C83_whole"
   ],
   "note": ""
  },
  {
   "property": "C84",
   "status": "proved",
   "theorems": [
    "MixedNum.C84_accuracy"
   ],
   "note": ""
  },
  {
   "property": "C85",
   "status": "partial",
   "theorems": [
    "MixedNum.C85_overflow",
    "MixedNum.C85_underflow",
    "MixedNum.C85_counterexample",
    "MixedNum.C85_zero_iff",
    "MixedNum.C85_finite",
    "MixedNum.C85_infinite",
    "MixedNum.C85_partial"
   ],
   "note": "False of the code: the squares overflow or underflow (C85_counterexample). C85_zero_iff says exactly when the result is zero; C85_infinite and C85_finite bound the overflow within 3 parts in 2^p; C85_partial is the claim on the widest domain."
  },
  {
   "property": "C86",
   "status": "proved",
   "theorems": [
    "MixedNum.C86_accuracy"
   ],
   "note": ""
  },
  {
   "property": "C87",
   "status": "partial",
   "theorems": [
    "MixedNum.C87_nan",
    "MixedNum.C87_diverges",
    "MixedNum.C87_counterexample",
    "MixedNum.C87_partial"
   ],
   "note": "False of the code: infinite angles and angles beyond 2^(p+3) loop forever (C87_diverges); C87_partial covers all other angles but NaN, and C87_nan the NaN angle (no loop; the result is that of the external sine and cosine of NaN)."
  },
  {
   "property": "C88",
   "status": "proved",
   "theorems": [
    "MixedNum.C88_accuracy"
   ],
   "note": ""
  },
  {
   "property": "C89",
   "status": "proved",
   "theorems": [
    "MixedNum.C89_round_trip"
   ],
   "note": ""
  },
  {
   "property": "C90",
   "status": "proved",
   "theorems": [
    "MixedNum.C90_round_trip"
   ],
   "note": ""
  },
  {
   "property": "C91",
   "status": "proved",
   "theorems": [
    "MixedNum.C91_conj",
    "MixedNum.C91_add",
    "MixedNum.C91_mul",
    "MixedNum.C91_norm"
   ],
   "note": "All floats; equality up to the sign of zero is Flt.Same (Spec/FloatSame.lean)."
  },
  {
   "property": "C92",
   "status": "proved",
   "theorems": [
    "MixedNum.C92_sin",
    "MixedNum.C92_powi",
    "MixedNum.C92_sqrt",
    "MixedNum.C92_atan2",
    "MixedNum.C92_atan2_zero",
    "MixedNum.C92_atan"
   ],
   "note": "All formats with at least single precision where rounding of constants matters; atan2 at y = -0 shown not odd (C92_atan2_zero)."
  },
  {
   "property": "C93",
   "status": "proved",
   "theorems": [
    "MixedNum.C93_sign",
    "MixedNum.C93_sign_abs",
    "MixedNum.C93_abs",
    "MixedNum.C93_flag",
    "MixedNum.C93_neg"
   ],
   "note": ""
  },
  {
   "property": "C94",
   "status": "proved",
   "theorems": [
    "MixedNum.C94_pi_f32",
    "MixedNum.C94_pi_f64",
    "MixedNum.C94_tau",
    "MixedNum.C94_identities",
    "MixedNum.C94_comm",
    "MixedNum.C94_complex",
    "MixedNum.C94_infinite"
   ],
   "note": "Constants for f32 and f64; identities for every format with at least single precision."
  },
  {
   "property": "C95",
   "status": "proved",
   "theorems": [
    "MixedNum.C95_order",
    "MixedNum.C95_means",
    "MixedNum.C95_nan",
    "MixedNum.C95_complex",
    "MixedNum.C95_complex_nan"
   ],
   "note": ""
  },
  {
   "property": "C96",
   "status": "proved",
   "theorems": [
    "MixedNum.C96_floor",
    "MixedNum.C96_ceil",
    "MixedNum.C96_mirror",
    "MixedNum.C96_fixed_points"
   ],
   "note": "libm's floor and ceil are modelled exactly (trusted)."
  },
  {
   "property": "C97",
   "status": "proved",
   "theorems": [
    "MixedNum.C97_libm",
    "MixedNum.C97_libm_inverse",
    "MixedNum.C97_libm_binary",
    "MixedNum.C97_round_trip",
    "MixedNum.C97_cordic"
   ],
   "note": "For all external functions meeting LibmWithin / CordicWithin; such functions exist."
  },
  {
   "property": "C98",
   "status": "proved",
   "theorems": [
    "MixedNum.C98_mul",
    "MixedNum.C98_mul_zero",
    "MixedNum.C98_scalar",
    "MixedNum.C98_conj",
    "MixedNum.C98_mul_polar",
    "MixedNum.C98_mul_cartesian"
   ],
   "note": "External root, arctangent and sincos enter by their accuracy."
  },
  {
   "property": "C99",
   "status": "proved",
   "theorems": [
    "MixedNum.C99_to_db",
    "MixedNum.C99_from_db",
    "MixedNum.C99_round_trip"
   ],
   "note": "For all external functions meeting LibmWithin; such functions exist."
  },
  {
   "property": "C100",
   "status": "proved",
   "theorems": [
    "MixedNum.C100_float",
    "MixedNum.C100_fixed"
   ],
   "note": "For all external functions meeting LibmWithin / CordicWithin; such functions exist."
  },
  {
   "property": "C101",
   "status": "proved",
   "theorems": [
    "MixedNum.C101_own_form",
    "MixedNum.C101_own_constructors",
    "MixedNum.C101_cross_constructors",
    "MixedNum.C101_readers",
    "MixedNum.C101_normalised",
    "MixedNum.C101_cartesian"
   ],
   "note": "Generic over the component type; readers also on exact reals."
  },
  {
   "property": "C102",
   "status": "partial",
   "theorems": [
    "MixedNum.C102_exact",
    "MixedNum.C102_counterexample",
    "MixedNum.C102_partial",
    "MixedNum.C102_int"
   ],
   "note": "False of the code: a polar number made from a negative real, or scaled by one, has a negative magnitude (C102_counterexample); C102_exact gives the exact condition."
  },
  {
   "property": "C103",
   "status": "proved",
   "theorems": [
    "MixedNum.C103_wrap",
    "MixedNum.C103_cos",
    "MixedNum.C103_cos_panics"
   ],
   "note": "Both overflow modes; exact panic condition of cos."
  },
  {
   "property": "C104",
   "status": "proved",
   "theorems": [
    "MixedNum.C104_accuracy",
    "MixedNum.C104_returns",
    "MixedNum.C104_panics"
   ],
   "note": "Exact return and panic conditions with overflow checks; accuracy in both modes."
  },
  {
   "property": "C105",
   "status": "partial",
   "theorems": [
    "MixedNum.C105_returns",
    "MixedNum.C105_panics",
    "MixedNum.C105_accuracy",
    "MixedNum.C105_counterexample",
    "MixedNum.C105_partial"
   ],
   "note": "False of the code: the square of x overflows for large x (C105_counterexample); C105_returns gives the exact condition, accuracy proved there."
  },
  {
   "property": "C106",
   "status": "proved",
   "theorems": [
    "MixedNum.C106_neg_fixed",
    "MixedNum.C106_add_fixed",
    "MixedNum.C106_neg_real",
    "MixedNum.C106_add_real",
    "MixedNum.C106_neg_float"
   ],
   "note": "Negation on fixed point, exact reals and floats; addition on fixed point and exact reals (on floats each step rounds, so it is not exact)."
  },
  {
   "property": "C107",
   "status": "proved",
   "theorems": [
    "MixedNum.C107_returns",
    "MixedNum.C107_panics",
    "MixedNum.C107_accuracy"
   ],
   "note": "Exact condition for panics with overflow checks, and an error bound for results that fit."
  },
  {
   "property": "C108",
   "status": "proved",
   "theorems": [
    "MixedNum.C108_accuracy",
    "MixedNum.C108_overflow"
   ],
   "note": "Relative to accuracy hypotheses on the external CORDIC functions; such functions exist (fixedSinCosOn_exists)."
  },
  {
   "property": "C109",
   "status": "proved",
   "theorems": [
    "MixedNum.C109_constants_float",
    "MixedNum.C109_mul_int",
    "MixedNum.C109_mul_fixed",
    "MixedNum.C109_scale_int",
    "MixedNum.C109_scale_fixed",
    "MixedNum.C109_comm_generic",
    "MixedNum.C109_comm",
    "MixedNum.C109_constants_int",
    "MixedNum.C109_constants_fixed"
   ],
   "note": "Integers, fixed point; commutativity also for floats and reals."
  },
  {
   "property": "C110",
   "status": "proved",
   "theorems": [
    "MixedNum.C110_cartesian_polar",
    "MixedNum.C110_polar_cartesian"
   ],
   "note": "Relative to accuracy hypotheses on the external CORDIC functions."
  },
  {
   "property": "C111",
   "status": "proved",
   "theorems": [
    "MixedNum.C111_niirf_fixed",
    "MixedNum.C111_niirf_float",
    "MixedNum.C111_atan2_fixed",
    "MixedNum.C111_atan2_float",
    "MixedNum.C111_wrap_fixed",
    "MixedNum.C111_wrap_float"
   ],
   "note": "The methods call the routines of C49, C70, C65, C79, C30 and C75 with two Newton steps and the receiver as first argument."
  },
  {
   "property": "C112",
   "status": "proved",
   "theorems": [
    "MixedNum.C112_iterated",
    "MixedNum.C112_start",
    "MixedNum.C112_zero"
   ],
   "note": "niirf with the i32 counter, all roundings; F>=8, F+4<=W<=128."
  },
  {
   "property": "C113",
   "status": "proved",
   "theorems": [
    "MixedNum.C113_int_checked",
    "MixedNum.C113_int_wrapping",
    "MixedNum.C113_fixed_checked",
    "MixedNum.C113_fixed_accuracy",
    "MixedNum.C113_fixed_wrapping"
   ],
   "note": "exact outcome on integers and fixed point in both overflow modes; accuracy on fixed point with overflow checks"
  },
  {
   "property": "C114",
   "status": "proved",
   "theorems": [
    "MixedNum.C114_accuracy",
    "MixedNum.C114_underflow",
    "MixedNum.C114_zero",
    "MixedNum.C114_overflow"
   ],
   "note": "accuracy where the square of the divisor's real part is normal; behaviour at zero, on underflow and on overflow of that square"
  },
  {
   "property": "C115",
   "status": "proved",
   "theorems": [
    "MixedNum.C115_release",
    "MixedNum.C115_debug",
    "MixedNum.C115_magnitude",
    "MixedNum.C115_every_type",
    "MixedNum.C115_exactly"
   ],
   "note": "Found while completing C50: the absolute value of the most negative number wraps to itself, four times that is 0, and the normalisation loop never leaves 0. F >= 2. For to_polar and powi the arctangent is a parameter. C72 has the panics with overflow checks."
  },
  {
   "property": "C116",
   "status": "proved",
   "theorems": [
    "MixedNum.C116_reads",
    "MixedNum.C116_returns",
    "MixedNum.C116_injective",
    "MixedNum.C116_formats"
   ],
   "note": "Rendering of one unsigned integer in a base is modelled by its digits (core::fmt). LowerExp and UpperExp are covered by C61 with the component text as a parameter."
  },
  {
   "property": "C117",
   "status": "proved",
   "theorems": [
    "MixedNum.C117_debug",
    "MixedNum.C117_layout",
    "MixedNum.C117_pretty",
    "MixedNum.C117_int",
    "MixedNum.C117_default"
   ],
   "note": "The multi-line form assumes component texts of one line."
  },
  {
   "property": "C118",
   "status": "proved",
   "theorems": [
    "MixedNum.C118_rising",
    "MixedNum.C118_falling"
   ],
   "note": ""
  },
  {
   "property": "C119",
   "status": "partial",
   "theorems": [
    "MixedNum.C119_float_partial",
    "MixedNum.C119_fixed_partial",
    "MixedNum.C119_counterexample",
    "MixedNum.C119_counterexample_machine",
    "MixedNum.C119_partial",
    "MixedNum.C119_cos_partial",
    "MixedNum.C119_exact_partial"
   ],
   "note": "False: cosine of zero and sine of pi/2 exceed one by 3.5e-6, on the machine types too. Proved: excess below 3.6e-6, none for angles more than 0.0038 away from pi/2; C119_exact_partial: on the reals exactly where the angle is within pi/2 - c of the turning points (c = 1.568 to three places); on floats below 5.9e-6 (f32) and 3.62e-6 (f64), on fixed point at most 4e-6 plus 9 units in the last place."
  },
  {
   "property": "C120",
   "status": "partial",
   "theorems": [
    "MixedNum.C120_float_partial",
    "MixedNum.C120_fixed_partial",
    "MixedNum.C120_counterexample",
    "MixedNum.C120_counterexample_machine",
    "MixedNum.C120_partial"
   ],
   "note": "False across a boundary of the correction table, on the machine types too. Proved: monotone within a row of the table and for arguments at least 0.4% apart; on floats for arguments 0.4% apart, on fixed point with 16 fraction bits for arguments 1% apart and not below 1/1024."
  },
  {
   "property": "C121",
   "status": "proved",
   "theorems": [
    "MixedNum.C121_increasing"
   ],
   "note": ""
  },
  {
   "property": "C122",
   "status": "proved",
   "theorems": [
    "MixedNum.C122_real",
    "MixedNum.C122_fixed",
    "MixedNum.C122_f32",
    "MixedNum.C122_f64"
   ],
   "note": ""
  },
  {
   "property": "C123",
   "status": "partial",
   "theorems": [
    "MixedNum.C123_counterexample",
    "MixedNum.C123_norm_partial",
    "MixedNum.C123_mul_partial",
    "MixedNum.C123_norm_int"
   ],
   "note": "False on fixed point (counterexample in the last bit); integers proved. Fixed point: exact real part, exact condition for returning, exact deviation of the imaginary part."
  },
  {
   "property": "C124",
   "status": "proved",
   "theorems": [
    "MixedNum.C124_mul_int",
    "MixedNum.C124_div_int",
    "MixedNum.C124_add_int",
    "MixedNum.C124_int_panics",
    "MixedNum.C124_div_int_wrapping",
    "MixedNum.C124_mul_float",
    "MixedNum.C124_div_float",
    "MixedNum.C124_div_float_wrapping",
    "MixedNum.C124_div_by_thousandth"
   ],
   "note": ""
  },
  {
   "property": "C125",
   "status": "partial",
   "theorems": [
    "MixedNum.C125_counterexample",
    "MixedNum.C125_distrib_partial",
    "MixedNum.C125_assoc_partial"
   ],
   "note": "False (counterexamples). Proved: distributive up to 1 ulp (re) and 2 ulp (im), associative up to the stated number of ulps."
  },
  {
   "property": "C126",
   "status": "partial",
   "theorems": [
    "MixedNum.C126_value",
    "MixedNum.C126_value_scalar",
    "MixedNum.C126_value_polar",
    "MixedNum.C126_partial",
    "MixedNum.C126_left",
    "MixedNum.C126_left_scalar",
    "MixedNum.C126_div_int",
    "MixedNum.C126_add_int",
    "MixedNum.C126_sub_int",
    "MixedNum.C126_add_fixed",
    "MixedNum.C126_sub_fixed",
    "MixedNum.C126_counterexample",
    "MixedNum.C126_div_zero"
   ],
   "note": "False of the code: += -= /= with a complex number and /= with a zero scalar store before they have computed everything. Proved: the operators that compute first (scalar += -=, polar *=) keep the number; exact state left by the others on integers and fixed point; equality of the store-by-store operators with the value models."
  },
  {
   "property": "C127",
   "status": "proved",
   "theorems": [
    "MixedNum.C127_real",
    "MixedNum.C127_sym_fixed",
    "MixedNum.C127_sym_float",
    "MixedNum.C127_triangle_fixed",
    "MixedNum.C127_mul_fixed",
    "MixedNum.C127_triangle_float",
    "MixedNum.C127_mul_float"
   ],
   "note": "Exact on reals; on fixed point and floats up to stated error bounds; symmetries exact."
  },
  {
   "property": "C128",
   "status": "proved",
   "theorems": [
    "MixedNum.C128_float",
    "MixedNum.C128_minus_zero",
    "MixedNum.C128_fixed",
    "MixedNum.C128_fixed_min"
   ],
   "note": "All flags without precision; the rendering of one component is a parameter with the stated properties."
  },
  {
   "property": "C129",
   "status": "partial",
   "theorems": [
    "MixedNum.C129_counterexample",
    "MixedNum.C129_assoc_partial",
    "MixedNum.C129_distrib_partial",
    "MixedNum.C129_whole"
   ],
   "note": "False of the code (rounding; counterexamples on f32). Proved: error bounds for both laws, and both laws exactly on whole numbers within the precision."
  },
  {
   "property": "C130",
   "status": "proved",
   "theorems": [
    "MixedNum.C130_to_float",
    "MixedNum.C130_float_int",
    "MixedNum.C130_fixed",
    "MixedNum.C130_int_int",
    "MixedNum.C130_int_int_wraps",
    "MixedNum.C130_arith_fixed",
    "MixedNum.C130_arith_float"
   ],
   "note": "Mono is stated with the types' own <=. Casts between integers wrap round, so that part asks for representable values; C130_int_int_wraps shows the condition is needed."
  },
  {
   "property": "C131",
   "status": "proved",
   "theorems": [
    "MixedNum.C131_add",
    "MixedNum.C131_mul",
    "MixedNum.C131_base",
    "MixedNum.C131_base_wrapping",
    "MixedNum.C131_base_needs"
   ],
   "note": "Stated as SameOutcome of the two programs. C131_base_needs shows why the law for products asks for both sides to return."
  },
  {
   "property": "C132",
   "status": "partial",
   "theorems": [
    "MixedNum.C132_64",
    "MixedNum.C132_nonneg",
    "MixedNum.C132_partial",
    "MixedNum.C132_counterexample",
    "MixedNum.C132_complex"
   ],
   "note": "False of integers wider than the pointers with a negative exponent (C132_counterexample: 3.mixed_powi(-1) on i64), and on 16-bit targets. C132_nonneg: exponents from 0 on, every component type; C132_partial: all exponents on integers no wider than the pointers."
  },
  {
   "property": "C133",
   "status": "partial",
   "theorems": [
    "MixedNum.C133_sin_counterexample",
    "MixedNum.C133_sin_partial",
    "MixedNum.C133_cos_counterexample",
    "MixedNum.C133_cos_partial",
    "MixedNum.C133_atan2_counterexample",
    "MixedNum.C133_atan2_partial",
    "MixedNum.C133_sqrt",
    "MixedNum.C133_square"
   ],
   "note": "False of the code for sin, cos and atan2: the products round towards minus infinity, so sin(-x) and -sin(x) can differ in the last units (C133_*_counterexample). Proved instead: bounds on the difference of 4 units for sin, 10 for cos (none where the shifted argument is not folded differently), and of the quotient's step for atan2 (C133_*_partial). Square and root are exactly even."
  },
  {
   "property": "C134",
   "status": "proved",
   "theorems": [
    "MixedNum.C134_fixed",
    "MixedNum.C134_conj_fixed",
    "MixedNum.C134_times_i",
    "MixedNum.C134_float",
    "MixedNum.C134_conj_float"
   ],
   "note": "As programs, so with panics and for any square root; float version for all values with NaN included as stated."
  },
  {
   "property": "C135",
   "status": "proved",
   "theorems": [
    "MixedNum.C135_wrap_real",
    "MixedNum.C135_wrap_fixed",
    "MixedNum.C135_wrap_slow",
    "MixedNum.C135_sqrt_fixed",
    "MixedNum.C135_sqrt_fixed_release",
    "MixedNum.C135_loop_free_fixed",
    "MixedNum.C135_wrap_float",
    "MixedNum.C135_wrap_float_slow",
    "MixedNum.C135_sqrt_float",
    "MixedNum.C135_sqrt_float_sizes",
    "MixedNum.C135_loop_free_float",
    "MixedNum.C135_powi",
    "MixedNum.C135_powi_negative"
   ],
   "note": "The step budget of the model bounds the number of times each while loop evaluates its condition, so statements under every budget count passes. Multiplications of powi are counted with a type whose values count them."
  },
  {
   "property": "C136",
   "status": "proved",
   "theorems": [
    "MixedNum.C136_real",
    "MixedNum.C136_real_polar",
    "MixedNum.C136_fixed",
    "MixedNum.C136_f32",
    "MixedNum.C136_f64",
    "MixedNum.C136_f32_polar",
    "MixedNum.C136_f64_polar",
    "MixedNum.C136_fixed_polar"
   ],
   "note": ""
  },
  {
   "property": "C137",
   "status": "proved",
   "theorems": [
    "MixedNum.C137_real_square",
    "MixedNum.C137_real_root",
    "MixedNum.C137_fixed_root",
    "MixedNum.C137_fixed_square",
    "MixedNum.C137_float_square",
    "MixedNum.C137_float_root"
   ],
   "note": ""
  },
  {
   "property": "C138",
   "status": "proved",
   "theorems": [
    "MixedNum.C138_sqrt",
    "MixedNum.C138_atan2",
    "MixedNum.C138_mul",
    "MixedNum.C138_add"
   ],
   "note": "niirf, atan2, complex add, sub and mul; the range conditions on atan2 and mul keep squares and products normal."
  },
  {
   "property": "C139",
   "status": "proved",
   "theorems": [
    "MixedNum.C139_int",
    "MixedNum.C139_int_neg",
    "MixedNum.C139_int_cartesian",
    "MixedNum.C139_int_num_complex",
    "MixedNum.C139_int_scalar",
    "MixedNum.C139_int_polar",
    "MixedNum.C139_int_conj",
    "MixedNum.C139_fixed",
    "MixedNum.C139_fixed_neg",
    "MixedNum.C139_fixed_cartesian",
    "MixedNum.C139_fixed_num_complex",
    "MixedNum.C139_fixed_scalar",
    "MixedNum.C139_fixed_polar",
    "MixedNum.C139_fixed_conj",
    "MixedNum.C139_int_text",
    "MixedNum.C139_fixed_sqrt",
    "MixedNum.C139_fixed_niirf",
    "MixedNum.C139_float_niirf",
    "MixedNum.C139_fixed_trig",
    "MixedNum.C139_fixed_abs",
    "MixedNum.C139_cordic",
    "MixedNum.C139_fixed_forms",
    "MixedNum.C139_convert"
   ],
   "note": "the three outcomes are those of the relation Agrees; crate cordic enters through hypothesis CordicAlike, met by stand-in functions in an example"
  },
  {
   "property": "C140",
   "status": "partial",
   "theorems": [
    "MixedNum.C140_int_partial",
    "MixedNum.C140_fixed_partial",
    "MixedNum.C140_float_scalar_partial",
    "MixedNum.C140_real_partial",
    "MixedNum.C140_subring",
    "MixedNum.C140_float_partial",
    "MixedNum.C140_div_counterexample"
   ],
   "note": "False of the code for '/': C140_div_counterexample (C07: the divisor's imaginary part is never read). Proved for '+', '-' and '*'."
  },
  {
   "property": "C141",
   "status": "proved",
   "theorems": [
    "MixedNum.C141_int_release",
    "MixedNum.C141_int_complex_release",
    "MixedNum.C141_int_neg_release",
    "MixedNum.C141_int_scalar_release",
    "MixedNum.C141_int_float_release",
    "MixedNum.C141_int_debug",
    "MixedNum.C141_int_complex_debug",
    "MixedNum.C141_int_neg_debug",
    "MixedNum.C141_int_scalar_debug",
    "MixedNum.C141_int_float_debug",
    "MixedNum.C141_fixed_release",
    "MixedNum.C141_fixed_complex_release",
    "MixedNum.C141_fixed_trig_release",
    "MixedNum.C141_fixed_scalar_release",
    "MixedNum.C141_fixed_debug",
    "MixedNum.C141_fixed_complex_debug",
    "MixedNum.C141_fixed_trig_debug",
    "MixedNum.C141_fixed_scalar_debug",
    "MixedNum.C141_convert_release",
    "MixedNum.C141_fixed_forms_release",
    "MixedNum.C141_fixed_cordic_release"
   ],
   "note": "Integers, fixed point, both build modes; cordic as a parameter."
  },
  {
   "property": "C142",
   "status": "proved",
   "theorems": [
    "MixedNum.C142_float",
    "MixedNum.C142_complex",
    "MixedNum.C142_scalar",
    "MixedNum.C142_scalar_int",
    "MixedNum.C142_libm",
    "MixedNum.C142_niirf"
   ],
   "note": "The crate's own functions and what goes through libm; niirf's counter in debug builds is the stated exception (C71)."
  },
  {
   "property": "C143",
   "status": "proved",
   "theorems": [
    "MixedNum.C143_int_add",
    "MixedNum.C143_int_sub",
    "MixedNum.C143_fixed_add",
    "MixedNum.C143_fixed_sub",
    "MixedNum.C143_int_zero",
    "MixedNum.C143_fixed_zero",
    "MixedNum.C143_float_zero",
    "MixedNum.C143_float_nearby",
    "MixedNum.C143_float_add",
    "MixedNum.C143_float_lossy"
   ],
   "note": "All component types, both overflow modes. On floats (z + w) - w is not z in general; the error bound and a loss of all digits are proved."
  },
  {
   "property": "C144",
   "status": "proved",
   "theorems": [
    "MixedNum.C144_int",
    "MixedNum.C144_int_wrapping",
    "MixedNum.C144_int_div",
    "MixedNum.C144_fixed_int",
    "MixedNum.C144_fixed",
    "MixedNum.C144_fixed_div",
    "MixedNum.C144_float",
    "MixedNum.C144_float_div",
    "MixedNum.C144_float_lossy"
   ],
   "note": "Integers and fixed point in debug builds; the failure after a wrapped product in release builds is shown. Floats with error bounds."
  },
  {
   "property": "C145",
   "status": "proved",
   "theorems": [
    "MixedNum.C145_sin_real",
    "MixedNum.C145_sin_float",
    "MixedNum.C145_sin_fixed",
    "MixedNum.C145_atan_real",
    "MixedNum.C145_atan_sharp",
    "MixedNum.C145_atan_float"
   ],
   "note": "Reals, floats and fixed point for the sine; reals and floats for the arctangent. C145_atan_sharp: 0.81 % would be false."
  },
  {
   "property": "C146",
   "status": "proved",
   "theorems": [
    "MixedNum.C146_cos_period",
    "MixedNum.C146_sin_of_cos",
    "MixedNum.C146_sin_mirror",
    "MixedNum.C146_cos_period_real",
    "MixedNum.C146_sin_of_cos_real"
   ],
   "note": "Fixed point and exact reals (the mirror image on reals is C37_mirror). On floats the shift by a turn rounds, so the period is not exact there."
  },
  {
   "property": "C147",
   "status": "proved",
   "theorems": [
    "MixedNum.C147_scale",
    "MixedNum.C147_half_turn",
    "MixedNum.C147_mirror",
    "MixedNum.C147_quarter_turn",
    "MixedNum.C147_swap",
    "MixedNum.C147_diagonal",
    "MixedNum.C147_swap_fixed",
    "MixedNum.C147_half_turn_fixed",
    "MixedNum.C147_mirror_fixed",
    "MixedNum.C147_swap_float",
    "MixedNum.C147_half_turn_float"
   ],
   "note": "reals: Props/Octants; fixed point and floats bit for bit; the diagonal exception is part of the statement"
  },
  {
   "property": "C148",
   "status": "proved",
   "theorems": [
    "MixedNum.C148_step_fixed",
    "MixedNum.C148_add_fixed",
    "MixedNum.C148_mul_fixed",
    "MixedNum.C148_base_fixed",
    "MixedNum.C148_fixed_not_exact",
    "MixedNum.C148_add_float",
    "MixedNum.C148_mul_float",
    "MixedNum.C148_base_float",
    "MixedNum.C148_inverse_float"
   ],
   "note": "C148_fixed_not_exact shows that the two sides need not be equal"
  },
  {
   "property": "C149",
   "status": "proved",
   "theorems": [
    "MixedNum.C149_product",
    "MixedNum.C149_sum",
    "MixedNum.C149_order",
    "MixedNum.C149_twice_float",
    "MixedNum.C149_half_float",
    "MixedNum.C149_product_float",
    "MixedNum.C149_order_float"
   ],
   "note": "Reals; floats with the external logarithm and exponential entering by their accuracy only where stated."
  },
  {
   "property": "C150",
   "status": "proved",
   "theorems": [
    "MixedNum.C150_monotone",
    "MixedNum.C150_monotone_release",
    "MixedNum.C150_odd"
   ],
   "note": "Exact integer argument for every number of fraction bits; the release-build version lists the overflow conditions."
  },
  {
   "property": "C151",
   "status": "partial",
   "theorems": [
    "MixedNum.C151_counterexample_fixed",
    "MixedNum.C151_rising_fixed_partial",
    "MixedNum.C151_falling_fixed_partial",
    "MixedNum.C151_strict_fixed_partial",
    "MixedNum.C151_counterexample_float",
    "MixedNum.C151_rising_float_partial",
    "MixedNum.C151_strict_float_partial",
    "MixedNum.C151_counterexample_atan",
    "MixedNum.C151_atan_float_partial"
   ],
   "note": "False: concrete pairs in the wrong order for I32-with-12-fraction-bits and f32. Proved instead: wrong by at most 9 units in the last place on fixed point (rising and falling part), by 13*2^-p on floats, arctangent by 24*2^-p; strictly in order between -1 and 1 for numbers 18 units (25*2^-p) apart."
  },
  {
   "property": "C152",
   "status": "proved",
   "theorems": [
    "MixedNum.C152_assoc_int_release",
    "MixedNum.C152_assoc_int",
    "MixedNum.C152_assoc_counterexample",
    "MixedNum.C152_assoc_fixed",
    "MixedNum.C152_conj_int",
    "MixedNum.C152_conj_fixed",
    "MixedNum.C152_conj_float",
    "MixedNum.C152_scale_int",
    "MixedNum.C152_assoc_float"
   ],
   "note": "associativity of wrapped integers fails only where C152_assoc_counterexample shows, as the statement says"
  },
  {
   "property": "C153",
   "status": "proved",
   "theorems": [
    "MixedNum.C153_fixed",
    "MixedNum.C153_float"
   ],
   "note": "relative to the accuracy of the external sincos; such functions exist (C88, C97)"
  },
  {
   "property": "C154",
   "status": "proved",
   "theorems": [
    "MixedNum.C154_exp_float",
    "MixedNum.C154_to_cartesian_float",
    "MixedNum.C154_to_polar_float",
    "MixedNum.C154_exp_fixed",
    "MixedNum.C154_to_cartesian_fixed",
    "MixedNum.C154_to_polar_fixed",
    "MixedNum.C154_unit_lost"
   ],
   "note": "relative to the symmetry of the external functions (Spec/Symmetric.lean), which is satisfiable"
  },
  {
   "property": "C155",
   "status": "proved",
   "theorems": [
    "MixedNum.C155_zero",
    "MixedNum.C155_one",
    "MixedNum.C155_add",
    "MixedNum.C155_conj",
    "MixedNum.C155_tiny"
   ],
   "note": "relative to accuracy or symmetry hypotheses on the external CORDIC functions"
  },
  {
   "property": "C156",
   "status": "proved",
   "theorems": [
    "MixedNum.C156_real",
    "MixedNum.C156_fixed",
    "MixedNum.C156_f32",
    "MixedNum.C156_f64"
   ],
   "note": ""
  },
  {
   "property": "C157",
   "status": "proved",
   "theorems": [
    "MixedNum.C157_up",
    "MixedNum.C157_down"
   ],
   "note": "For x below a quarter and 4^j x of at least one, the two parts compose at the multiple that lies in [1/4, 1)."
  },
  {
   "property": "C158",
   "status": "proved",
   "theorems": [
    "MixedNum.C158_product_fixed",
    "MixedNum.C158_sum_fixed",
    "MixedNum.C158_inverse_fixed",
    "MixedNum.C158_real_fixed",
    "MixedNum.C158_product_float",
    "MixedNum.C158_inverse_float",
    "MixedNum.C158_sum_float",
    "MixedNum.C158_real_float"
   ],
   "note": "Relative to accuracy hypotheses on the external functions; such functions exist (libmWithin_exists, cordicWithin_exists)."
  },
  {
   "property": "C159",
   "status": "partial",
   "theorems": [
    "MixedNum.C159_counterexample_sqrt",
    "MixedNum.C159_counterexample_cos",
    "MixedNum.C159_counterexample_cos_real",
    "MixedNum.C159_axis_fixed_partial",
    "MixedNum.C159_axis_float_partial",
    "MixedNum.C159_zero_fixed_partial",
    "MixedNum.C159_zero_float_partial",
    "MixedNum.C159_mag_float_partial",
    "MixedNum.C159_origin_fixed_partial",
    "MixedNum.C159_origin_float_partial"
   ],
   "note": "False of the code: sqrt(1) is about 1.00075 on f32, f64 and I16F16 (C159_counterexample_sqrt), and cos(0) is larger than 1 on the reals, on f32, f64 and with ten fraction bits (C159_counterexample_cos, _cos_real). Proved exactly: everything else in the statement, on all signed fixed-point types with three (axes) or twenty (zero) integer bits to spare, both modes, and on all floats as wide as f32; on floats the sine of a zero and the origin are exact up to the sign of the zero, and the magnitude of a zero is the external square root of positive zero."
  },
  {
   "property": "C160",
   "status": "proved",
   "theorems": [
    "MixedNum.C160_sin_real",
    "MixedNum.C160_cos_real",
    "MixedNum.C160_sin_fixed",
    "MixedNum.C160_cos_fixed",
    "MixedNum.C160_sin_float",
    "MixedNum.C160_cos_float"
   ],
   "note": "Proved on the reals without any slack, on fixed point in both modes (nine and eleven units, which come from the 4.7-unit rounding bound of each sine), and on floats."
  },
  {
   "property": "C161",
   "status": "partial",
   "theorems": [
    "MixedNum.C161_counterexample_real",
    "MixedNum.C161_counterexample_float",
    "MixedNum.C161_counterexample_fixed",
    "MixedNum.C161_real_partial",
    "MixedNum.C161_smooth_partial",
    "MixedNum.C161_float_partial",
    "MixedNum.C161_fixed_partial",
    "MixedNum.C161_any_build_partial"
   ],
   "note": "False of the code: at 1 and -1 the two pieces of the polynomial do not meet and the result jumps by pi/2 - 64/41 (C161_counterexample_*). Proved: never decreasing, and rising by at most y - x plus that jump for each of 1 and -1 passed, on reals, floats and fixed point (up to rounding)."
  },
  {
   "property": "C162",
   "status": "partial",
   "theorems": [
    "MixedNum.C162_real",
    "MixedNum.C162_counterexample_fixed",
    "MixedNum.C162_float_partial",
    "MixedNum.C162_idempotent_partial"
   ],
   "note": "False of the code on fixed point, where the root is an estimate: C162_counterexample_fixed. Proved on the reals, and on floats bit for bit with a correctly rounded root (C162_float_partial, C162_idempotent_partial) while the square is a normal number. Outside that range it is false too (C85)."
  },
  {
   "property": "C163",
   "status": "partial",
   "theorems": [
    "MixedNum.C163_real",
    "MixedNum.C163_counterexample_fixed",
    "MixedNum.C163_fixed_partial",
    "MixedNum.C163_mono_float_partial",
    "MixedNum.C163_ge_float_partial"
   ],
   "note": "False of the code on fixed point: C163_counterexample_fixed (magnitude below the part, and out of order). Proved on the reals; on fixed point up to the error of the magnitude; on floats with a correctly rounded root exactly, while the squares are normal numbers and do not overflow."
  },
  {
   "property": "C164",
   "status": "proved",
   "theorems": [
    "MixedNum.C164_int",
    "MixedNum.C164_sub_int",
    "MixedNum.C164_fixed",
    "MixedNum.C164_sub_fixed",
    "MixedNum.C164_total",
    "MixedNum.C164_total_int",
    "MixedNum.C164_order_int",
    "MixedNum.C164_order_fixed",
    "MixedNum.C164_real",
    "MixedNum.C164_float",
    "MixedNum.C164_float_exact"
   ],
   "note": "The loop is a fold of the modelled operator over a list of any length. Both overflow modes, reals, floats."
  },
  {
   "property": "C165",
   "status": "partial",
   "theorems": [
    "MixedNum.C165_counterexample",
    "MixedNum.C165_int_partial",
    "MixedNum.C165_fixed_partial",
    "MixedNum.C165_real_partial",
    "MixedNum.C165_float_partial"
   ],
   "note": "False of the code, because += computes the imaginary part from the real part (C05): C165_counterexample. The _partial theorems say exactly what the loop leaves, on every component type, and on the reals exactly when that is the sum."
  },
  {
   "property": "C166",
   "status": "proved",
   "theorems": [
    "MixedNum.C166_real",
    "MixedNum.C166_int_checked",
    "MixedNum.C166_int_wrapping",
    "MixedNum.C166_fixed_checked",
    "MixedNum.C166_int_returns",
    "MixedNum.C166_fixed_returns",
    "MixedNum.C166_release_int",
    "MixedNum.C166_release_fixed",
    "MixedNum.C166_float"
   ],
   "note": "Integers exact, fixed point and floats with error bounds growing with the number of terms, release builds by agreement with debug builds."
  },
  {
   "property": "C167",
   "status": "proved",
   "theorems": [
    "MixedNum.C167_fixed",
    "MixedNum.C167_half_turn",
    "MixedNum.C167_drift",
    "MixedNum.C167_tone",
    "MixedNum.C167_real",
    "MixedNum.C167_float",
    "MixedNum.C167_tone_float"
   ],
   "note": "Fixed point (exact modulo the type's turn, drift against the real circle, tone), exact reals, floats (drift per step, tone)."
  },
  {
   "property": "C168",
   "status": "partial",
   "theorems": [
    "MixedNum.C168_ops_partial",
    "MixedNum.C168_counterexample",
    "MixedNum.C168_complex_partial",
    "MixedNum.C168_div_partial",
    "MixedNum.C168_assign_partial",
    "MixedNum.C168_scalar_partial",
    "MixedNum.C168_powi_partial",
    "MixedNum.C168_atan2_partial",
    "MixedNum.C168_routines_partial",
    "MixedNum.C168_forms_partial",
    "MixedNum.C168_polar_partial"
   ],
   "note": "False: += loses a NaN in the left imaginary part, / ignores the divisor's imaginary part, a polar product with magnitude zero, division by the number zero and atan2 beside a zero drop a NaN (C168_counterexample). Proved: exactly when the basic operations give NaN, and that every other operand is passed on as NaN."
  },
  {
   "property": "C169",
   "status": "proved",
   "theorems": [
    "MixedNum.C169_real",
    "MixedNum.C169_int_checked",
    "MixedNum.C169_int_wrapping",
    "MixedNum.C169_total",
    "MixedNum.C169_order",
    "MixedNum.C169_int_returns",
    "MixedNum.C169_release_int",
    "MixedNum.C169_release_fixed",
    "MixedNum.C169_fixed_checked",
    "MixedNum.C169_fixed_returns",
    "MixedNum.C169_decay",
    "MixedNum.C169_float",
    "MixedNum.C169_float_exact"
   ],
   "note": "The loop is a specification-side fold; the crate itself has no Product."
  },
  {
   "property": "C170",
   "status": "proved",
   "theorems": [
    "MixedNum.C170_real",
    "MixedNum.C170_int_checked",
    "MixedNum.C170_int_wrapping",
    "MixedNum.C170_total",
    "MixedNum.C170_release_int",
    "MixedNum.C170_release_fixed",
    "MixedNum.C170_fixed_checked",
    "MixedNum.C170_fixed_stable",
    "MixedNum.C170_fixed_forgets",
    "MixedNum.C170_float_stable"
   ],
   "note": ""
  },
  {
   "property": "C171",
   "status": "proved",
   "theorems": [
    "MixedNum.C171_real",
    "MixedNum.C171_real_back",
    "MixedNum.C171_same",
    "MixedNum.C171_fixed",
    "MixedNum.C171_fixed_size",
    "MixedNum.C171_release",
    "MixedNum.C171_float"
   ],
   "note": "exact on reals; on fixed point and floats within the accumulated error of the steps, given the error of the external sincos; equivalence with multiplying by the converted factors holds for every component type"
  },
  {
   "property": "C172",
   "status": "proved",
   "theorems": [
    "MixedNum.C172_real",
    "MixedNum.C172_int_checked",
    "MixedNum.C172_int_wrapping",
    "MixedNum.C172_int_zero",
    "MixedNum.C172_fixed_zero",
    "MixedNum.C172_fixed_checked",
    "MixedNum.C172_fixed_returns",
    "MixedNum.C172_fixed_value",
    "MixedNum.C172_release_int",
    "MixedNum.C172_release_fixed",
    "MixedNum.C172_release_angle",
    "MixedNum.C172_float"
   ],
   "note": "Existence of the result on fixed point is proved for signed types and factors of magnitude at most one; accuracy for every type. C172_release_angle shows what a release build does with an angle that overflows."
  },
  {
   "property": "C173",
   "status": "proved",
   "theorems": [
    "MixedNum.C173_real",
    "MixedNum.C173_tone",
    "MixedNum.C173_fixed",
    "MixedNum.C173_release",
    "MixedNum.C173_float"
   ],
   "note": "Reals exact, with the Fourier transform of a tone; fixed point and floats with error bounds; release builds by agreement with debug builds."
  },
  {
   "property": "C174",
   "status": "proved",
   "theorems": [
    "MixedNum.C174_real",
    "MixedNum.C174_bound",
    "MixedNum.C174_float",
    "MixedNum.C174_fixed",
    "MixedNum.C174_release"
   ],
   "note": "one trip from C89 and C90; library functions enter with stated errors"
  },
  {
   "property": "C175",
   "status": "proved",
   "theorems": [
    "MixedNum.C175_real",
    "MixedNum.C175_turned",
    "MixedNum.C175_fixed",
    "MixedNum.C175_release",
    "MixedNum.C175_float"
   ],
   "note": "The external arctangent enters with a stated error."
  },
  {
   "property": "C176",
   "status": "proved",
   "theorems": [
    "MixedNum.C176_real",
    "MixedNum.C176_float",
    "MixedNum.C176_fixed",
    "MixedNum.C176_release"
   ],
   "note": "Relative to accuracy hypotheses on the external functions; such functions exist (libmWithin_exists, cordicWithin_exists)."
  },
  {
   "property": "C177",
   "status": "proved",
   "theorems": [
    "MixedNum.C177_bins",
    "MixedNum.C177_there_and_back",
    "MixedNum.C177_energy",
    "MixedNum.C177_faithful",
    "MixedNum.C177_shift",
    "MixedNum.C177_linear",
    "MixedNum.C177_convolution",
    "MixedNum.C177_real_input"
   ],
   "note": "Exact reals: the operators used together compute the transform. The error of a single bin on fixed point and floats is C173."
  },
  {
   "property": "C178",
   "status": "proved",
   "theorems": [
    "MixedNum.C178_times_infinity",
    "MixedNum.C178_over_infinity",
    "MixedNum.C178_infinite_part",
    "MixedNum.C178_add_sub",
    "MixedNum.C178_conj",
    "MixedNum.C178_polar",
    "MixedNum.C178_real_infinity"
   ],
   "note": "Signs are read off comparisons with zero, or off the sign flag for zeros."
  },
  {
   "property": "C179",
   "status": "proved",
   "theorems": [
    "MixedNum.C179_i32_fixed",
    "MixedNum.C179_i32_int",
    "MixedNum.C179_i32_float",
    "MixedNum.C179_f64_fixed",
    "MixedNum.C179_f64_int",
    "MixedNum.C179_f64_float",
    "MixedNum.C179_decimal",
    "MixedNum.C179_decimal_fixed",
    "MixedNum.C179_decimal_float"
   ],
   "note": "An f64 constant -0 is excluded on floats; the code has none."
  }
 ]
}