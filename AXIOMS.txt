# 19 theorems: no axioms
# 890 theorems: Classical.choice, Quot.sound, propext
# 1 theorems: Quot.sound
# 21 theorems: Quot.sound, propext
# 14 theorems: propext
MixedNum.C01_add_int: Classical.choice, Quot.sound, propext
MixedNum.C01_sub_int: Classical.choice, Quot.sound, propext
MixedNum.C01_add_fixed: Classical.choice, Quot.sound, propext
MixedNum.C01_sub_fixed: Classical.choice, Quot.sound, propext
MixedNum.C01_free_functions: none
MixedNum.C02_checked_exact: Classical.choice, Quot.sound, propext
MixedNum.C02_checked_returns_iff: Classical.choice, Quot.sound, propext
MixedNum.C02_checked_total: Classical.choice, Quot.sound, propext
MixedNum.C02_wrapping: Classical.choice, Quot.sound, propext
MixedNum.C02_real: Classical.choice, Quot.sound, propext
MixedNum.C03_generic: Quot.sound, propext
MixedNum.C03_int: Classical.choice, Quot.sound, propext
MixedNum.C03_fixed: Classical.choice, Quot.sound, propext
MixedNum.C03_float: Classical.choice, Quot.sound, propext
MixedNum.C03_real: Classical.choice, Quot.sound, propext
MixedNum.C04_add_assoc: Classical.choice, Quot.sound, propext
MixedNum.C04_add_comm: Classical.choice, Quot.sound, propext
MixedNum.C04_mul_assoc: Classical.choice, Quot.sound, propext
MixedNum.C04_distrib: Classical.choice, Quot.sound, propext
MixedNum.C04_zero: Classical.choice, Quot.sound, propext
MixedNum.C04_one: Classical.choice, Quot.sound, propext
MixedNum.C05_counterexample: Classical.choice, Quot.sound, propext
MixedNum.C05_counterexample_f32: Classical.choice, Quot.sound, propext
MixedNum.C05_ignores_imaginary_part: none
MixedNum.C05_partial: Quot.sound, propext
MixedNum.C05_real_part_partial: Quot.sound, propext
MixedNum.C05_exact: Classical.choice, Quot.sound, propext
MixedNum.C05_exact_wrapping: Classical.choice, Quot.sound, propext
MixedNum.C05_exact_int: Classical.choice, Quot.sound, propext
MixedNum.C05_exact_fixed: Classical.choice, Quot.sound, propext
MixedNum.C06_counterexample: Classical.choice, Quot.sound, propext
MixedNum.C06_self_not_zero: Classical.choice, Quot.sound, propext
MixedNum.C06_ignores_imaginary_part: none
MixedNum.C06_partial: Quot.sound, propext
MixedNum.C06_exact: Classical.choice, Quot.sound, propext
MixedNum.C06_real_part_partial: Quot.sound, propext
MixedNum.C06_exact_int: Classical.choice, Quot.sound, propext
MixedNum.C06_exact_fixed: Classical.choice, Quot.sound, propext
MixedNum.C07_counterexample: Classical.choice, Quot.sound, propext
MixedNum.C07_panics_on_imaginary_divisor: Classical.choice, Quot.sound, propext
MixedNum.C07_counterexample_int: Classical.choice, Quot.sound, propext
MixedNum.C07_ignores_imaginary_part: none
MixedNum.C07_actual: Classical.choice, Quot.sound, propext
MixedNum.C07_partial: Classical.choice, Quot.sound, propext
MixedNum.C07_exact: Classical.choice, Quot.sound, propext
MixedNum.C08_division_entry_points: none
MixedNum.C09_generic: Quot.sound, propext
MixedNum.C09_conversion_panics: Quot.sound, propext
MixedNum.C09_real: Classical.choice, Quot.sound, propext
MixedNum.C09_int: Classical.choice, Quot.sound, propext
MixedNum.C10_add: propext
MixedNum.C10_sub: propext
MixedNum.C10_assign: none
MixedNum.C10_int: Classical.choice, Quot.sound, propext
MixedNum.C10_real: Classical.choice, Quot.sound, propext
MixedNum.C11_int_zero: Classical.choice, Quot.sound, propext
MixedNum.C11_int_float_zero: Classical.choice, Quot.sound, propext
MixedNum.C11_fixed_zero: Classical.choice, Quot.sound, propext
MixedNum.C11_float_zero: Classical.choice, Quot.sound, propext
MixedNum.C11_nonzero: Quot.sound, propext
MixedNum.C11_free_function_int: Classical.choice, Quot.sound, propext
MixedNum.C11_real: Classical.choice, Quot.sound, propext
MixedNum.C11_float_int_zero: Classical.choice, Quot.sound, propext
MixedNum.C11_free_function_fixed: Classical.choice, Quot.sound, propext
MixedNum.C11_free_function_float: Classical.choice, Quot.sound, propext
MixedNum.C12_counterexample_int: Classical.choice, Quot.sound, propext
MixedNum.C12_counterexample_f64: Classical.choice, Quot.sound, propext
MixedNum.C12_partial: Quot.sound, propext
MixedNum.C12_counterexample_fixed: Classical.choice, Quot.sound, propext
MixedNum.C12_counterexample_float: Classical.choice, Quot.sound, propext
MixedNum.C13_div_by_zero_iff: Classical.choice, Quot.sound, propext
MixedNum.C13_float: Classical.choice, Quot.sound, propext
MixedNum.C13_half: Classical.choice, Quot.sound, propext
MixedNum.C13_other_panic: Classical.choice, Quot.sound, propext
MixedNum.C13_overflow_iff: Classical.choice, Quot.sound, propext
MixedNum.C14_fixed_min: Classical.choice, Quot.sound, propext
MixedNum.C14_real: Classical.choice, Quot.sound, propext
MixedNum.C14_involutive: Classical.choice, Quot.sound, propext
MixedNum.C14_mul: Classical.choice, Quot.sound, propext
MixedNum.C14_add: Classical.choice, Quot.sound, propext
MixedNum.C14_norm: Classical.choice, Quot.sound, propext
MixedNum.C14_int: Classical.choice, Quot.sound, propext
MixedNum.C14_fixed: Classical.choice, Quot.sound, propext
MixedNum.C14_mul_wrapping: Classical.choice, Quot.sound, propext
MixedNum.C14_add_wrapping: Classical.choice, Quot.sound, propext
MixedNum.C14_involutive_wrapping: Classical.choice, Quot.sound, propext
MixedNum.C14_involutive_checked: Classical.choice, Quot.sound, propext
MixedNum.C14_hom_checked: Classical.choice, Quot.sound, propext
MixedNum.C15_polar_conj: Classical.choice, Quot.sound, propext
MixedNum.C15_cartesian_conj_polar: Classical.choice, Quot.sound, propext
MixedNum.C15_generic: Quot.sound, propext
MixedNum.C16_round_trip: Classical.choice, Quot.sound, propext
MixedNum.C16_to_polar: Classical.choice, Quot.sound, propext
MixedNum.C16_zero: Classical.choice, Quot.sound, propext
MixedNum.C16_negative_axis: Classical.choice, Quot.sound, propext
MixedNum.C17_normalises: Classical.choice, Quot.sound, propext
MixedNum.C17_round_trip: Classical.choice, Quot.sound, propext
MixedNum.C17_zero: Classical.choice, Quot.sound, propext
MixedNum.C18_sincos_argument: Classical.choice, Quot.sound, propext
MixedNum.C18_turns: Classical.choice, Quot.sound, propext
MixedNum.C18_real: Classical.choice, Quot.sound, propext
MixedNum.C18_sincos_argument_real: Classical.choice, Quot.sound, propext
MixedNum.C19_entry_points: Quot.sound, propext
MixedNum.C19_mixed_abs_im: propext
MixedNum.C19_to_polar: propext
MixedNum.C19_real: Classical.choice, Quot.sound, propext
MixedNum.C19_to_polar_failure: none
MixedNum.C20_polar_polar: Classical.choice, Quot.sound, propext
MixedNum.C20_polar_cartesian: Classical.choice, Quot.sound, propext
MixedNum.C20_polar_scalar: Classical.choice, Quot.sound, propext
MixedNum.C20_cartesian_polar: Classical.choice, Quot.sound, propext
MixedNum.C21_generic: Quot.sound, propext
MixedNum.C21_fixed: Classical.choice, Quot.sound, propext
MixedNum.C21_int: Classical.choice, Quot.sound, propext
MixedNum.C21_float: Classical.choice, Quot.sound, propext
MixedNum.C21_real: Classical.choice, Quot.sound, propext
MixedNum.C22_int_nonzero: Classical.choice, Quot.sound, propext
MixedNum.C22_fixed_nonzero: Classical.choice, Quot.sound, propext
MixedNum.C22_generic: Quot.sound, propext
MixedNum.C22_fixed_zero: Classical.choice, Quot.sound, propext
MixedNum.C22_int: Classical.choice, Quot.sound, propext
MixedNum.C22_fixed: Classical.choice, Quot.sound, propext
MixedNum.C22_float: Classical.choice, Quot.sound, propext
MixedNum.C22_real: Classical.choice, Quot.sound, propext
MixedNum.C22_float_nonzero: Classical.choice, Quot.sound, propext
MixedNum.C23_exp: Classical.choice, Quot.sound, propext
MixedNum.C23_homomorphism: Classical.choice, Quot.sound, propext
MixedNum.C23_zero: Classical.choice, Quot.sound, propext
MixedNum.C23_modulus: Classical.choice, Quot.sound, propext
MixedNum.C24_powi: Classical.choice, Quot.sound, propext
MixedNum.C24_recursion: Classical.choice, Quot.sound, propext
MixedNum.C24_bound_needed: Classical.choice, Quot.sound, propext
MixedNum.C25_int_powi: Classical.choice, Quot.sound, propext
MixedNum.C25_zero_exponent: Classical.choice, Quot.sound, propext
MixedNum.C25_trigonometry_powi: Classical.choice, Quot.sound, propext
MixedNum.C26_panics: Classical.choice, Quot.sound, propext
MixedNum.C26_units: Classical.choice, Quot.sound, propext
MixedNum.C26_wrapping: Classical.choice, Quot.sound, propext
MixedNum.C26_wrapping_odd: Classical.choice, Quot.sound, propext
MixedNum.C27_sign_int: Classical.choice, Quot.sound, propext
MixedNum.C27_sign_unsigned: Classical.choice, Quot.sound, propext
MixedNum.C27_sign_mul_abs_int: Classical.choice, Quot.sound, propext
MixedNum.C27_sign_fixed: Classical.choice, Quot.sound, propext
MixedNum.C27_sign_fixed_unsigned: Classical.choice, Quot.sound, propext
MixedNum.C27_sign_mul_abs_fixed: Classical.choice, Quot.sound, propext
MixedNum.C27_real: Classical.choice, Quot.sound, propext
MixedNum.C28_abs_int: Classical.choice, Quot.sound, propext
MixedNum.C28_abs_fixed: Classical.choice, Quot.sound, propext
MixedNum.C28_in_range_iff: Classical.choice, Quot.sound, propext
MixedNum.C28_min_wrapping: Classical.choice, Quot.sound, propext
MixedNum.C28_min_checked: Classical.choice, Quot.sound, propext
MixedNum.C28_abs_unsigned: Classical.choice, Quot.sound, propext
MixedNum.C29_exclusive_int: Classical.choice, Quot.sound, propext
MixedNum.C29_exclusive_fixed: Classical.choice, Quot.sound, propext
MixedNum.C29_signed: Classical.choice, Quot.sound, propext
MixedNum.C29_unsigned: Classical.choice, Quot.sound, propext
MixedNum.C29_float: Classical.choice, Quot.sound, propext
MixedNum.C30_wrap_fixed: Classical.choice, Quot.sound, propext
MixedNum.C30_unique: Classical.choice, Quot.sound, propext
MixedNum.C31_identity_fixed: Classical.choice, Quot.sound, propext
MixedNum.C31_idempotent_fixed: Classical.choice, Quot.sound, propext
MixedNum.C31_identity_real: Classical.choice, Quot.sound, propext
MixedNum.C31_idempotent_real: Classical.choice, Quot.sound, propext
MixedNum.C32_counterexample: Classical.choice, Quot.sound, propext
MixedNum.C32_partial: Classical.choice, Quot.sound, propext
MixedNum.C33_wrap_real: Classical.choice, Quot.sound, propext
MixedNum.C33_unique: Classical.choice, Quot.sound, propext
MixedNum.C33_same_point: Classical.choice, Quot.sound, propext
MixedNum.C34_terminates_partial: Classical.choice, Quot.sound, propext
MixedNum.C34_nan: Classical.choice, Quot.sound, propext
MixedNum.C34_diverges: Classical.choice, Quot.sound, propext
MixedNum.C34_f32: Classical.choice, Quot.sound, propext
MixedNum.C34_f64: Classical.choice, Quot.sound, propext
MixedNum.C34_counterexample: Classical.choice, Quot.sound, propext
MixedNum.C35_sin: Classical.choice, Quot.sound, propext
MixedNum.C35_outside: Classical.choice, Quot.sound, propext
MixedNum.C36_cos: Classical.choice, Quot.sound, propext
MixedNum.C37_odd: Classical.choice, Quot.sound, propext
MixedNum.C37_mirror: Classical.choice, Quot.sound, propext
MixedNum.C37_bounded: Classical.choice, Quot.sound, propext
MixedNum.C37_zero: Classical.choice, Quot.sound, propext
MixedNum.C38_release_accuracy_cos: Classical.choice, Quot.sound, propext
MixedNum.C38_sin_partial: Classical.choice, Quot.sound, propext
MixedNum.C38_release_returns: Classical.choice, Quot.sound, propext
MixedNum.C38_release_accuracy: Classical.choice, Quot.sound, propext
MixedNum.C38_release_counterexample: Classical.choice, Quot.sound, propext
MixedNum.C38_counterexample: Classical.choice, Quot.sound, propext
MixedNum.C38_wrapping_counterexample: Classical.choice, Quot.sound, propext
MixedNum.C39_sin: Classical.choice, Quot.sound, propext
MixedNum.C39_sin_real: Classical.choice, Quot.sound, propext
MixedNum.C39_cos: Classical.choice, Quot.sound, propext
MixedNum.C40_accuracy: Classical.choice, Quot.sound, propext
MixedNum.C40_decimal: Classical.choice, Quot.sound, propext
MixedNum.C40_sharp: Classical.choice, Quot.sound, propext
MixedNum.C40_axes: Classical.choice, Quot.sound, propext
MixedNum.C41_counterexample: Classical.choice, Quot.sound, propext
MixedNum.C41_near_axes_partial: Classical.choice, Quot.sound, propext
MixedNum.C41_exact_partial: Classical.choice, Quot.sound, propext
MixedNum.C41_counterexample_machine: Classical.choice, Quot.sound, propext
MixedNum.C42_quadrant: Classical.choice, Quot.sound, propext
MixedNum.C43_counterexample: Classical.choice, Quot.sound, propext
MixedNum.C43_min_counterexample: Classical.choice, Quot.sound, propext
MixedNum.C43_partial: Classical.choice, Quot.sound, propext
MixedNum.C43_exact: Classical.choice, Quot.sound, propext
MixedNum.C44_def: Classical.choice, Quot.sound, propext
MixedNum.C44_accuracy: Classical.choice, Quot.sound, propext
MixedNum.C44_odd: Classical.choice, Quot.sound, propext
MixedNum.C45_accuracy: Classical.choice, Quot.sound, propext
MixedNum.C45_zero: Classical.choice, Quot.sound, propext
MixedNum.C46_counterexample: Classical.choice, Quot.sound, propext
MixedNum.C46_partial: Classical.choice, Quot.sound, propext
MixedNum.C46_exact_partial: Classical.choice, Quot.sound, propext
MixedNum.C46_counterexample_machine: Classical.choice, Quot.sound, propext
MixedNum.C47_neg: Classical.choice, Quot.sound, propext
MixedNum.C47_scale: Classical.choice, Quot.sound, propext
MixedNum.C48_rate: Classical.choice, Quot.sound, propext
MixedNum.C48_tendsto: Classical.choice, Quot.sound, propext
MixedNum.C49_accuracy: Classical.choice, Quot.sound, propext
MixedNum.C49_fine: Classical.choice, Quot.sound, propext
MixedNum.C49_negative: Classical.choice, Quot.sound, propext
MixedNum.C49_zero: Classical.choice, Quot.sound, propext
MixedNum.C50_counterexample: Classical.choice, Quot.sound, propext
MixedNum.C50_normalised_partial: Classical.choice, Quot.sound, propext
MixedNum.C50_domain: Classical.choice, Quot.sound, propext
MixedNum.C50_release: Classical.choice, Quot.sound, propext
MixedNum.C50_partial: Classical.choice, Quot.sound, propext
MixedNum.C50_one_bit_partial: Classical.choice, Quot.sound, propext
MixedNum.C51_release_returns: Classical.choice, Quot.sound, propext
MixedNum.C51_release_wrong: Classical.choice, Quot.sound, propext
MixedNum.C51_counterexample: Classical.choice, Quot.sound, propext
MixedNum.C51_partial: Classical.choice, Quot.sound, propext
MixedNum.C51_exact_partial: Classical.choice, Quot.sound, propext
MixedNum.C52_counterexample_signed: Classical.choice, Quot.sound, propext
MixedNum.C52_counterexample_unsigned: Classical.choice, Quot.sound, propext
MixedNum.C52_counterexample_int: Classical.choice, Quot.sound, propext
MixedNum.C52_zero_partial: Classical.choice, Quot.sound, propext
MixedNum.C53_mag: Classical.choice, Quot.sound, propext
MixedNum.C53_pow: Classical.choice, Quot.sound, propext
MixedNum.C53_mag_inv: Classical.choice, Quot.sound, propext
MixedNum.C53_pow_inv: Classical.choice, Quot.sound, propext
MixedNum.C53_square: Classical.choice, Quot.sound, propext
MixedNum.C54_exact: Classical.choice, Quot.sound, propext
MixedNum.C54_reduces: Classical.choice, Quot.sound, propext
MixedNum.C54_to_num: Classical.choice, Quot.sound, propext
MixedNum.C54_round_trip: Classical.choice, Quot.sound, propext
MixedNum.C54_widening: Classical.choice, Quot.sound, propext
MixedNum.C55_from_int: Classical.choice, Quot.sound, propext
MixedNum.C55_to_int: Classical.choice, Quot.sound, propext
MixedNum.C55_to_int_outcome: Classical.choice, Quot.sound, propext
MixedNum.C55_round_trip: Classical.choice, Quot.sound, propext
MixedNum.C56_componentwise: none
MixedNum.C56_panics: none
MixedNum.C56_real_float: none
MixedNum.C56_real_fixed: propext
MixedNum.C56_to_complex: none
MixedNum.C56_polar: none
MixedNum.C56_panics_all: Quot.sound, propext
MixedNum.C57_int: Classical.choice, Quot.sound, propext
MixedNum.C57_fixed: Classical.choice, Quot.sound, propext
MixedNum.C57_cartesian_int: Classical.choice, Quot.sound, propext
MixedNum.C57_cartesian_fixed: Classical.choice, Quot.sound, propext
MixedNum.C57_real: Classical.choice, Quot.sound, propext
MixedNum.C57_polar_real: Classical.choice, Quot.sound, propext
MixedNum.C58_pi: Classical.choice, Quot.sound, propext
MixedNum.C59_counterexample: Classical.choice, Quot.sound, propext
MixedNum.C59_wrapping: Classical.choice, Quot.sound, propext
MixedNum.C59_tau_partial: Classical.choice, Quot.sound, propext
MixedNum.C60_reads: Classical.choice, Quot.sound, propext
MixedNum.C60_round_trip: Classical.choice, Quot.sound, propext
MixedNum.C60_checked: Classical.choice, Quot.sound, propext
MixedNum.C60_injective: Classical.choice, Quot.sound, propext
MixedNum.C61_layout: Classical.choice, Quot.sound, propext
MixedNum.C61_int: Classical.choice, Quot.sound, propext
MixedNum.C61_real: Classical.choice, Quot.sound, propext
MixedNum.C62_counterexample: Classical.choice, Quot.sound, propext
MixedNum.C62_partial: Classical.choice, Quot.sound, propext
MixedNum.C62_wrapping: Classical.choice, Quot.sound, propext
MixedNum.C63_num_complex: none
MixedNum.C63_real: Classical.choice, Quot.sound, propext
MixedNum.C64_order: Classical.choice, Quot.sound, propext
MixedNum.C64_int: Classical.choice, Quot.sound, propext
MixedNum.C64_fixed: Classical.choice, Quot.sound, propext
MixedNum.C64_components: propext
MixedNum.C64_le: Classical.choice, Quot.sound, propext
MixedNum.C65_accuracy: Classical.choice, Quot.sound, propext
MixedNum.C65_axes: Classical.choice, Quot.sound, propext
MixedNum.C66_reads: Classical.choice, Quot.sound, propext
MixedNum.C66_injective: Classical.choice, Quot.sound, propext
MixedNum.C66_generic: propext
MixedNum.C67_exact: Classical.choice, Quot.sound, propext
MixedNum.C67_nearest: Classical.choice, Quot.sound, propext
MixedNum.C67_mono: Classical.choice, Quot.sound, propext
MixedNum.C67_truncates: Classical.choice, Quot.sound, propext
MixedNum.C67_special: Classical.choice, Quot.sound, propext
MixedNum.C67_widening: Classical.choice, Quot.sound, propext
MixedNum.C67_rounds: Classical.choice, Quot.sound, propext
MixedNum.C67_mono_all: Classical.choice, Quot.sound, propext
MixedNum.C67_u128: Classical.choice, Quot.sound, propext
MixedNum.C68_exact: Classical.choice, Quot.sound, propext
MixedNum.C68_nearest: Classical.choice, Quot.sound, propext
MixedNum.C68_nonfinite: Classical.choice, Quot.sound, propext
MixedNum.C68_bound_needed: Classical.choice, Quot.sound, propext
MixedNum.C69_int: Classical.choice, Quot.sound, propext
MixedNum.C69_fixed: Classical.choice, Quot.sound, propext
MixedNum.C69_float: Classical.choice, Quot.sound, propext
MixedNum.C70_accuracy: Classical.choice, Quot.sound, propext
MixedNum.C70_f32: Classical.choice, Quot.sound, propext
MixedNum.C70_f64: Classical.choice, Quot.sound, propext
MixedNum.C70_zero: Classical.choice, Quot.sound, propext
MixedNum.C71_counterexample: Classical.choice, Quot.sound, propext
MixedNum.C71_counterexample_debug: Classical.choice, Quot.sound, propext
MixedNum.C71_counterexample_passes: Classical.choice, Quot.sound, propext
MixedNum.C71_nan_partial: Classical.choice, Quot.sound, propext
MixedNum.C71_partial: Classical.choice, Quot.sound, propext
MixedNum.C72_overflow: Classical.choice, Quot.sound, propext
MixedNum.C72_accuracy: Classical.choice, Quot.sound, propext
MixedNum.C72_relative: Classical.choice, Quot.sound, propext
MixedNum.C72_underflow: Classical.choice, Quot.sound, propext
MixedNum.C73_checked_exact: Classical.choice, Quot.sound, propext
MixedNum.C73_checked_domain: Classical.choice, Quot.sound, propext
MixedNum.C73_accuracy: Classical.choice, Quot.sound, propext
MixedNum.C73_wrapping: Classical.choice, Quot.sound, propext
MixedNum.C74_accuracy: Classical.choice, Quot.sound, propext
MixedNum.C74_zero: Classical.choice, Quot.sound, propext
MixedNum.C75_accuracy: Classical.choice, Quot.sound, propext
MixedNum.C75_near: Classical.choice, Quot.sound, propext
MixedNum.C76_accuracy: Classical.choice, Quot.sound, propext
MixedNum.C76_f32: Classical.choice, Quot.sound, propext
MixedNum.C76_f64: Classical.choice, Quot.sound, propext
MixedNum.C76_nan: Classical.choice, Quot.sound, propext
MixedNum.C77_accuracy: Classical.choice, Quot.sound, propext
MixedNum.C77_f32: Classical.choice, Quot.sound, propext
MixedNum.C77_f64: Classical.choice, Quot.sound, propext
MixedNum.C78_diverges: Classical.choice, Quot.sound, propext
MixedNum.C78_partial: Classical.choice, Quot.sound, propext
MixedNum.C78_f32: Classical.choice, Quot.sound, propext
MixedNum.C78_f64: Classical.choice, Quot.sound, propext
MixedNum.C78_counterexample: Classical.choice, Quot.sound, propext
MixedNum.C79_accuracy: Classical.choice, Quot.sound, propext
MixedNum.C79_f32: Classical.choice, Quot.sound, propext
MixedNum.C79_f64: Classical.choice, Quot.sound, propext
MixedNum.C79_atan: Classical.choice, Quot.sound, propext
MixedNum.C79_axes: Classical.choice, Quot.sound, propext
MixedNum.C80_diagonal: Classical.choice, Quot.sound, propext
MixedNum.C80_counterexample: Classical.choice, Quot.sound, propext
MixedNum.C80_partial: Classical.choice, Quot.sound, propext
MixedNum.C80_nan_iff: Classical.choice, Quot.sound, propext
MixedNum.C80_off: Classical.choice, Quot.sound, propext
MixedNum.C80_nonfinite: Classical.choice, Quot.sound, propext
MixedNum.C81_accuracy: Classical.choice, Quot.sound, propext
MixedNum.C81_negative: Classical.choice, Quot.sound, propext
MixedNum.C81_whole: Classical.choice, Quot.sound, propext
MixedNum.C81_zero_one: Classical.choice, Quot.sound, propext
MixedNum.C82_determined: Classical.choice, Quot.sound, propext
MixedNum.C82_add: Classical.choice, Quot.sound, propext
MixedNum.C82_sub: Classical.choice, Quot.sound, propext
MixedNum.C82_scalar: Classical.choice, Quot.sound, propext
MixedNum.C82_scalar_int: Classical.choice, Quot.sound, propext
MixedNum.C83_accuracy: Classical.choice, Quot.sound, propext
MixedNum.C83_whole: Classical.choice, Quot.sound, propext
MixedNum.C84_accuracy: Classical.choice, Quot.sound, propext
MixedNum.C85_overflow: Classical.choice, Quot.sound, propext
MixedNum.C85_underflow: Classical.choice, Quot.sound, propext
MixedNum.C85_counterexample: Classical.choice, Quot.sound, propext
MixedNum.C85_zero_iff: Classical.choice, Quot.sound, propext
MixedNum.C85_finite: Classical.choice, Quot.sound, propext
MixedNum.C85_infinite: Classical.choice, Quot.sound, propext
MixedNum.C85_partial: Classical.choice, Quot.sound, propext
MixedNum.C86_accuracy: Classical.choice, Quot.sound, propext
MixedNum.C87_nan: Classical.choice, Quot.sound, propext
MixedNum.C87_diverges: Classical.choice, Quot.sound, propext
MixedNum.C87_counterexample: Classical.choice, Quot.sound, propext
MixedNum.C87_partial: Classical.choice, Quot.sound, propext
MixedNum.C88_accuracy: Classical.choice, Quot.sound, propext
MixedNum.C89_round_trip: Classical.choice, Quot.sound, propext
MixedNum.C90_round_trip: Classical.choice, Quot.sound, propext
MixedNum.C91_conj: propext
MixedNum.C91_add: Classical.choice, Quot.sound, propext
MixedNum.C91_mul: Classical.choice, Quot.sound, propext
MixedNum.C91_norm: Classical.choice, Quot.sound, propext
MixedNum.C92_sin: Classical.choice, Quot.sound, propext
MixedNum.C92_powi: Classical.choice, Quot.sound, propext
MixedNum.C92_sqrt: Classical.choice, Quot.sound, propext
MixedNum.C92_atan2: Classical.choice, Quot.sound, propext
MixedNum.C92_atan2_zero: Classical.choice, Quot.sound, propext
MixedNum.C92_atan: Classical.choice, Quot.sound, propext
MixedNum.C93_sign: Classical.choice, Quot.sound, propext
MixedNum.C93_sign_abs: Classical.choice, Quot.sound, propext
MixedNum.C93_abs: none
MixedNum.C93_flag: Classical.choice, Quot.sound, propext
MixedNum.C93_neg: Classical.choice, Quot.sound, propext
MixedNum.C94_pi_f32: Classical.choice, Quot.sound, propext
MixedNum.C94_pi_f64: Classical.choice, Quot.sound, propext
MixedNum.C94_tau: Classical.choice, Quot.sound, propext
MixedNum.C94_identities: Classical.choice, Quot.sound, propext
MixedNum.C94_comm: Classical.choice, Quot.sound, propext
MixedNum.C94_complex: Classical.choice, Quot.sound, propext
MixedNum.C94_infinite: Classical.choice, Quot.sound, propext
MixedNum.C95_order: Classical.choice, Quot.sound, propext
MixedNum.C95_means: Classical.choice, Quot.sound, propext
MixedNum.C95_nan: Quot.sound, propext
MixedNum.C95_complex: Classical.choice, Quot.sound, propext
MixedNum.C95_complex_nan: Quot.sound, propext
MixedNum.C96_floor: Classical.choice, Quot.sound, propext
MixedNum.C96_ceil: Classical.choice, Quot.sound, propext
MixedNum.C96_mirror: Classical.choice, Quot.sound, propext
MixedNum.C96_fixed_points: Classical.choice, Quot.sound, propext
MixedNum.C97_libm: Classical.choice, Quot.sound, propext
MixedNum.C97_libm_inverse: Classical.choice, Quot.sound, propext
MixedNum.C97_libm_binary: Classical.choice, Quot.sound, propext
MixedNum.C97_round_trip: Classical.choice, Quot.sound, propext
MixedNum.C97_cordic: Classical.choice, Quot.sound, propext
MixedNum.C98_mul: Classical.choice, Quot.sound, propext
MixedNum.C98_mul_zero: Classical.choice, Quot.sound, propext
MixedNum.C98_scalar: Classical.choice, Quot.sound, propext
MixedNum.C98_conj: none
MixedNum.C98_mul_polar: Classical.choice, Quot.sound, propext
MixedNum.C98_mul_cartesian: Classical.choice, Quot.sound, propext
MixedNum.C99_to_db: Classical.choice, Quot.sound, propext
MixedNum.C99_from_db: Classical.choice, Quot.sound, propext
MixedNum.C99_round_trip: Classical.choice, Quot.sound, propext
MixedNum.C100_float: Classical.choice, Quot.sound, propext
MixedNum.C100_fixed: Classical.choice, Quot.sound, propext
MixedNum.C101_own_form: none
MixedNum.C101_own_constructors: none
MixedNum.C101_cross_constructors: none
MixedNum.C101_readers: propext
MixedNum.C101_normalised: Classical.choice, Quot.sound, propext
MixedNum.C101_cartesian: Classical.choice, Quot.sound, propext
MixedNum.C102_exact: Classical.choice, Quot.sound, propext
MixedNum.C102_counterexample: Classical.choice, Quot.sound, propext
MixedNum.C102_partial: Classical.choice, Quot.sound, propext
MixedNum.C102_int: Classical.choice, Quot.sound, propext
MixedNum.C103_wrap: Classical.choice, Quot.sound, propext
MixedNum.C103_cos: Classical.choice, Quot.sound, propext
MixedNum.C103_cos_panics: Classical.choice, Quot.sound, propext
MixedNum.C104_accuracy: Classical.choice, Quot.sound, propext
MixedNum.C104_returns: Classical.choice, Quot.sound, propext
MixedNum.C104_panics: Classical.choice, Quot.sound, propext
MixedNum.C105_returns: Classical.choice, Quot.sound, propext
MixedNum.C105_panics: Classical.choice, Quot.sound, propext
MixedNum.C105_accuracy: Classical.choice, Quot.sound, propext
MixedNum.C105_counterexample: Classical.choice, Quot.sound, propext
MixedNum.C105_partial: Classical.choice, Quot.sound, propext
MixedNum.C106_neg_fixed: Classical.choice, Quot.sound, propext
MixedNum.C106_add_fixed: Classical.choice, Quot.sound, propext
MixedNum.C106_neg_real: Classical.choice, Quot.sound, propext
MixedNum.C106_add_real: Classical.choice, Quot.sound, propext
MixedNum.C106_neg_float: Classical.choice, Quot.sound, propext
MixedNum.C107_returns: Classical.choice, Quot.sound, propext
MixedNum.C107_panics: Classical.choice, Quot.sound, propext
MixedNum.C107_accuracy: Classical.choice, Quot.sound, propext
MixedNum.C108_accuracy: Classical.choice, Quot.sound, propext
MixedNum.C108_overflow: Classical.choice, Quot.sound, propext
MixedNum.C109_constants_float: Classical.choice, Quot.sound, propext
MixedNum.C109_mul_int: Classical.choice, Quot.sound, propext
MixedNum.C109_mul_fixed: Classical.choice, Quot.sound, propext
MixedNum.C109_scale_int: Classical.choice, Quot.sound, propext
MixedNum.C109_scale_fixed: Classical.choice, Quot.sound, propext
MixedNum.C109_comm_generic: Quot.sound
MixedNum.C109_comm: Classical.choice, Quot.sound, propext
MixedNum.C109_constants_int: Classical.choice, Quot.sound, propext
MixedNum.C109_constants_fixed: Classical.choice, Quot.sound, propext
MixedNum.C110_cartesian_polar: Classical.choice, Quot.sound, propext
MixedNum.C110_polar_cartesian: Classical.choice, Quot.sound, propext
MixedNum.C111_niirf_fixed: Classical.choice, Quot.sound, propext
MixedNum.C111_niirf_float: Classical.choice, Quot.sound, propext
MixedNum.C111_atan2_fixed: Classical.choice, Quot.sound, propext
MixedNum.C111_atan2_float: Classical.choice, Quot.sound, propext
MixedNum.C111_wrap_fixed: Classical.choice, Quot.sound, propext
MixedNum.C111_wrap_float: Classical.choice, Quot.sound, propext
MixedNum.C112_iterated: Classical.choice, Quot.sound, propext
MixedNum.C112_start: Classical.choice, Quot.sound, propext
MixedNum.C112_zero: Classical.choice, Quot.sound, propext
MixedNum.C113_int_checked: Classical.choice, Quot.sound, propext
MixedNum.C113_int_wrapping: Classical.choice, Quot.sound, propext
MixedNum.C113_fixed_checked: Classical.choice, Quot.sound, propext
MixedNum.C113_fixed_accuracy: Classical.choice, Quot.sound, propext
MixedNum.C113_fixed_wrapping: Classical.choice, Quot.sound, propext
MixedNum.C114_accuracy: Classical.choice, Quot.sound, propext
MixedNum.C114_underflow: Classical.choice, Quot.sound, propext
MixedNum.C114_zero: Classical.choice, Quot.sound, propext
MixedNum.C114_overflow: Classical.choice, Quot.sound, propext
MixedNum.C115_release: Classical.choice, Quot.sound, propext
MixedNum.C115_debug: Classical.choice, Quot.sound, propext
MixedNum.C115_magnitude: Classical.choice, Quot.sound, propext
MixedNum.C115_every_type: Classical.choice, Quot.sound, propext
MixedNum.C115_exactly: Classical.choice, Quot.sound, propext
MixedNum.C116_reads: Classical.choice, Quot.sound, propext
MixedNum.C116_returns: Classical.choice, Quot.sound, propext
MixedNum.C116_injective: Classical.choice, Quot.sound, propext
MixedNum.C116_formats: Classical.choice, Quot.sound, propext
MixedNum.C117_debug: Classical.choice, Quot.sound, propext
MixedNum.C117_layout: Classical.choice, Quot.sound, propext
MixedNum.C117_pretty: Classical.choice, Quot.sound, propext
MixedNum.C117_int: Classical.choice, Quot.sound, propext
MixedNum.C117_default: Classical.choice, Quot.sound, propext
MixedNum.C118_rising: Classical.choice, Quot.sound, propext
MixedNum.C118_falling: Classical.choice, Quot.sound, propext
MixedNum.C119_float_partial: Classical.choice, Quot.sound, propext
MixedNum.C119_fixed_partial: Classical.choice, Quot.sound, propext
MixedNum.C119_counterexample: Classical.choice, Quot.sound, propext
MixedNum.C119_counterexample_machine: Classical.choice, Quot.sound, propext
MixedNum.C119_partial: Classical.choice, Quot.sound, propext
MixedNum.C119_cos_partial: Classical.choice, Quot.sound, propext
MixedNum.C119_exact_partial: Classical.choice, Quot.sound, propext
MixedNum.C120_float_partial: Classical.choice, Quot.sound, propext
MixedNum.C120_fixed_partial: Classical.choice, Quot.sound, propext
MixedNum.C120_counterexample: Classical.choice, Quot.sound, propext
MixedNum.C120_counterexample_machine: Classical.choice, Quot.sound, propext
MixedNum.C120_partial: Classical.choice, Quot.sound, propext
MixedNum.C121_increasing: Classical.choice, Quot.sound, propext
MixedNum.C122_real: Classical.choice, Quot.sound, propext
MixedNum.C122_fixed: Classical.choice, Quot.sound, propext
MixedNum.C122_f32: Classical.choice, Quot.sound, propext
MixedNum.C122_f64: Classical.choice, Quot.sound, propext
MixedNum.C123_counterexample: Classical.choice, Quot.sound, propext
MixedNum.C123_norm_partial: Classical.choice, Quot.sound, propext
MixedNum.C123_mul_partial: Classical.choice, Quot.sound, propext
MixedNum.C123_norm_int: Classical.choice, Quot.sound, propext
MixedNum.C124_mul_int: Classical.choice, Quot.sound, propext
MixedNum.C124_div_int: Classical.choice, Quot.sound, propext
MixedNum.C124_add_int: Classical.choice, Quot.sound, propext
MixedNum.C124_int_panics: Classical.choice, Quot.sound, propext
MixedNum.C124_div_int_wrapping: Classical.choice, Quot.sound, propext
MixedNum.C124_mul_float: Classical.choice, Quot.sound, propext
MixedNum.C124_div_float: Classical.choice, Quot.sound, propext
MixedNum.C124_div_float_wrapping: Classical.choice, Quot.sound, propext
MixedNum.C124_div_by_thousandth: Classical.choice, Quot.sound, propext
MixedNum.C125_counterexample: Classical.choice, Quot.sound, propext
MixedNum.C125_distrib_partial: Classical.choice, Quot.sound, propext
MixedNum.C125_assoc_partial: Classical.choice, Quot.sound, propext
MixedNum.C126_value: Quot.sound, propext
MixedNum.C126_value_scalar: Quot.sound, propext
MixedNum.C126_value_polar: Quot.sound, propext
MixedNum.C126_partial: propext
MixedNum.C126_left: propext
MixedNum.C126_left_scalar: propext
MixedNum.C126_div_int: Classical.choice, Quot.sound, propext
MixedNum.C126_add_int: Classical.choice, Quot.sound, propext
MixedNum.C126_sub_int: Classical.choice, Quot.sound, propext
MixedNum.C126_add_fixed: Classical.choice, Quot.sound, propext
MixedNum.C126_sub_fixed: Classical.choice, Quot.sound, propext
MixedNum.C126_counterexample: Classical.choice, Quot.sound, propext
MixedNum.C126_div_zero: Classical.choice, Quot.sound, propext
MixedNum.C127_real: Classical.choice, Quot.sound, propext
MixedNum.C127_sym_fixed: Classical.choice, Quot.sound, propext
MixedNum.C127_sym_float: Classical.choice, Quot.sound, propext
MixedNum.C127_triangle_fixed: Classical.choice, Quot.sound, propext
MixedNum.C127_mul_fixed: Classical.choice, Quot.sound, propext
MixedNum.C127_triangle_float: Classical.choice, Quot.sound, propext
MixedNum.C127_mul_float: Classical.choice, Quot.sound, propext
MixedNum.C128_float: Classical.choice, Quot.sound, propext
MixedNum.C128_minus_zero: Classical.choice, Quot.sound, propext
MixedNum.C128_fixed: Classical.choice, Quot.sound, propext
MixedNum.C128_fixed_min: Classical.choice, Quot.sound, propext
MixedNum.C129_counterexample: Classical.choice, Quot.sound, propext
MixedNum.C129_assoc_partial: Classical.choice, Quot.sound, propext
MixedNum.C129_distrib_partial: Classical.choice, Quot.sound, propext
MixedNum.C129_whole: Classical.choice, Quot.sound, propext
MixedNum.C130_to_float: Classical.choice, Quot.sound, propext
MixedNum.C130_float_int: Classical.choice, Quot.sound, propext
MixedNum.C130_fixed: Classical.choice, Quot.sound, propext
MixedNum.C130_int_int: Classical.choice, Quot.sound, propext
MixedNum.C130_int_int_wraps: Classical.choice, Quot.sound, propext
MixedNum.C130_arith_fixed: Classical.choice, Quot.sound, propext
MixedNum.C130_arith_float: Classical.choice, Quot.sound, propext
MixedNum.C131_add: Classical.choice, Quot.sound, propext
MixedNum.C131_mul: Classical.choice, Quot.sound, propext
MixedNum.C131_base: Classical.choice, Quot.sound, propext
MixedNum.C131_base_wrapping: Classical.choice, Quot.sound, propext
MixedNum.C131_base_needs: Classical.choice, Quot.sound, propext
MixedNum.C132_64: propext
MixedNum.C132_nonneg: Classical.choice, Quot.sound, propext
MixedNum.C132_partial: Classical.choice, Quot.sound, propext
MixedNum.C132_counterexample: Classical.choice, Quot.sound, propext
MixedNum.C132_complex: Classical.choice, Quot.sound, propext
MixedNum.C133_sin_counterexample: Classical.choice, Quot.sound, propext
MixedNum.C133_sin_partial: Classical.choice, Quot.sound, propext
MixedNum.C133_cos_counterexample: Classical.choice, Quot.sound, propext
MixedNum.C133_cos_partial: Classical.choice, Quot.sound, propext
MixedNum.C133_atan2_counterexample: Classical.choice, Quot.sound, propext
MixedNum.C133_atan2_partial: Classical.choice, Quot.sound, propext
MixedNum.C133_sqrt: Classical.choice, Quot.sound, propext
MixedNum.C133_square: Classical.choice, Quot.sound, propext
MixedNum.C134_fixed: Classical.choice, Quot.sound, propext
MixedNum.C134_conj_fixed: Classical.choice, Quot.sound, propext
MixedNum.C134_times_i: Classical.choice, Quot.sound, propext
MixedNum.C134_float: Classical.choice, Quot.sound, propext
MixedNum.C134_conj_float: Classical.choice, Quot.sound, propext
MixedNum.C135_wrap_real: Classical.choice, Quot.sound, propext
MixedNum.C135_wrap_fixed: Classical.choice, Quot.sound, propext
MixedNum.C135_wrap_slow: Classical.choice, Quot.sound, propext
MixedNum.C135_sqrt_fixed: Classical.choice, Quot.sound, propext
MixedNum.C135_sqrt_fixed_release: Classical.choice, Quot.sound, propext
MixedNum.C135_loop_free_fixed: Classical.choice, Quot.sound, propext
MixedNum.C135_wrap_float: Classical.choice, Quot.sound, propext
MixedNum.C135_wrap_float_slow: Classical.choice, Quot.sound, propext
MixedNum.C135_sqrt_float: Classical.choice, Quot.sound, propext
MixedNum.C135_sqrt_float_sizes: Classical.choice, Quot.sound, propext
MixedNum.C135_loop_free_float: Classical.choice, Quot.sound, propext
MixedNum.C135_powi: Quot.sound, propext
MixedNum.C135_powi_negative: Quot.sound, propext
MixedNum.C136_real: Classical.choice, Quot.sound, propext
MixedNum.C136_real_polar: Classical.choice, Quot.sound, propext
MixedNum.C136_fixed: Classical.choice, Quot.sound, propext
MixedNum.C136_f32: Classical.choice, Quot.sound, propext
MixedNum.C136_f64: Classical.choice, Quot.sound, propext
MixedNum.C136_f32_polar: Classical.choice, Quot.sound, propext
MixedNum.C136_f64_polar: Classical.choice, Quot.sound, propext
MixedNum.C136_fixed_polar: Classical.choice, Quot.sound, propext
MixedNum.C137_real_square: Classical.choice, Quot.sound, propext
MixedNum.C137_real_root: Classical.choice, Quot.sound, propext
MixedNum.C137_fixed_root: Classical.choice, Quot.sound, propext
MixedNum.C137_fixed_square: Classical.choice, Quot.sound, propext
MixedNum.C137_float_square: Classical.choice, Quot.sound, propext
MixedNum.C137_float_root: Classical.choice, Quot.sound, propext
MixedNum.C138_sqrt: Classical.choice, Quot.sound, propext
MixedNum.C138_atan2: Classical.choice, Quot.sound, propext
MixedNum.C138_mul: Classical.choice, Quot.sound, propext
MixedNum.C138_add: Classical.choice, Quot.sound, propext
MixedNum.C139_int: Classical.choice, Quot.sound, propext
MixedNum.C139_int_neg: Classical.choice, Quot.sound, propext
MixedNum.C139_int_cartesian: Classical.choice, Quot.sound, propext
MixedNum.C139_int_num_complex: Classical.choice, Quot.sound, propext
MixedNum.C139_int_scalar: Classical.choice, Quot.sound, propext
MixedNum.C139_int_polar: Classical.choice, Quot.sound, propext
MixedNum.C139_int_conj: Classical.choice, Quot.sound, propext
MixedNum.C139_fixed: Classical.choice, Quot.sound, propext
MixedNum.C139_fixed_neg: Classical.choice, Quot.sound, propext
MixedNum.C139_fixed_cartesian: Classical.choice, Quot.sound, propext
MixedNum.C139_fixed_num_complex: Classical.choice, Quot.sound, propext
MixedNum.C139_fixed_scalar: Classical.choice, Quot.sound, propext
MixedNum.C139_fixed_polar: Classical.choice, Quot.sound, propext
MixedNum.C139_fixed_conj: Classical.choice, Quot.sound, propext
MixedNum.C139_int_text: Classical.choice, Quot.sound, propext
MixedNum.C139_fixed_sqrt: Classical.choice, Quot.sound, propext
MixedNum.C139_fixed_niirf: Classical.choice, Quot.sound, propext
MixedNum.C139_float_niirf: Classical.choice, Quot.sound, propext
MixedNum.C139_fixed_trig: Classical.choice, Quot.sound, propext
MixedNum.C139_fixed_abs: Classical.choice, Quot.sound, propext
MixedNum.C139_cordic: Classical.choice, Quot.sound, propext
MixedNum.C139_fixed_forms: Classical.choice, Quot.sound, propext
MixedNum.C139_convert: Classical.choice, Quot.sound, propext
MixedNum.C140_int_partial: Classical.choice, Quot.sound, propext
MixedNum.C140_fixed_partial: Classical.choice, Quot.sound, propext
MixedNum.C140_float_scalar_partial: Classical.choice, Quot.sound, propext
MixedNum.C140_real_partial: Classical.choice, Quot.sound, propext
MixedNum.C140_subring: Classical.choice, Quot.sound, propext
MixedNum.C140_float_partial: Classical.choice, Quot.sound, propext
MixedNum.C140_div_counterexample: Classical.choice, Quot.sound, propext
MixedNum.C141_int_release: Classical.choice, Quot.sound, propext
MixedNum.C141_int_complex_release: Classical.choice, Quot.sound, propext
MixedNum.C141_int_neg_release: Classical.choice, Quot.sound, propext
MixedNum.C141_int_scalar_release: Classical.choice, Quot.sound, propext
MixedNum.C141_int_float_release: Classical.choice, Quot.sound, propext
MixedNum.C141_int_debug: Classical.choice, Quot.sound, propext
MixedNum.C141_int_complex_debug: Classical.choice, Quot.sound, propext
MixedNum.C141_int_neg_debug: Classical.choice, Quot.sound, propext
MixedNum.C141_int_scalar_debug: Classical.choice, Quot.sound, propext
MixedNum.C141_int_float_debug: Classical.choice, Quot.sound, propext
MixedNum.C141_fixed_release: Classical.choice, Quot.sound, propext
MixedNum.C141_fixed_complex_release: Classical.choice, Quot.sound, propext
MixedNum.C141_fixed_trig_release: Classical.choice, Quot.sound, propext
MixedNum.C141_fixed_scalar_release: Classical.choice, Quot.sound, propext
MixedNum.C141_fixed_debug: Classical.choice, Quot.sound, propext
MixedNum.C141_fixed_complex_debug: Classical.choice, Quot.sound, propext
MixedNum.C141_fixed_trig_debug: Classical.choice, Quot.sound, propext
MixedNum.C141_fixed_scalar_debug: Classical.choice, Quot.sound, propext
MixedNum.C141_convert_release: Classical.choice, Quot.sound, propext
MixedNum.C141_fixed_forms_release: Classical.choice, Quot.sound, propext
MixedNum.C141_fixed_cordic_release: Classical.choice, Quot.sound, propext
MixedNum.C142_float: Classical.choice, Quot.sound, propext
MixedNum.C142_complex: Classical.choice, Quot.sound, propext
MixedNum.C142_scalar: Classical.choice, Quot.sound, propext
MixedNum.C142_scalar_int: Classical.choice, Quot.sound, propext
MixedNum.C142_libm: Classical.choice, Quot.sound, propext
MixedNum.C142_niirf: Classical.choice, Quot.sound, propext
MixedNum.C143_int_add: Classical.choice, Quot.sound, propext
MixedNum.C143_int_sub: Classical.choice, Quot.sound, propext
MixedNum.C143_fixed_add: Classical.choice, Quot.sound, propext
MixedNum.C143_fixed_sub: Classical.choice, Quot.sound, propext
MixedNum.C143_int_zero: Classical.choice, Quot.sound, propext
MixedNum.C143_fixed_zero: Classical.choice, Quot.sound, propext
MixedNum.C143_float_zero: Classical.choice, Quot.sound, propext
MixedNum.C143_float_nearby: Classical.choice, Quot.sound, propext
MixedNum.C143_float_add: Classical.choice, Quot.sound, propext
MixedNum.C143_float_lossy: Classical.choice, Quot.sound, propext
MixedNum.C144_int: Classical.choice, Quot.sound, propext
MixedNum.C144_int_wrapping: Classical.choice, Quot.sound, propext
MixedNum.C144_int_div: Classical.choice, Quot.sound, propext
MixedNum.C144_fixed_int: Classical.choice, Quot.sound, propext
MixedNum.C144_fixed: Classical.choice, Quot.sound, propext
MixedNum.C144_fixed_div: Classical.choice, Quot.sound, propext
MixedNum.C144_float: Classical.choice, Quot.sound, propext
MixedNum.C144_float_div: Classical.choice, Quot.sound, propext
MixedNum.C144_float_lossy: Classical.choice, Quot.sound, propext
MixedNum.C145_sin_real: Classical.choice, Quot.sound, propext
MixedNum.C145_sin_float: Classical.choice, Quot.sound, propext
MixedNum.C145_sin_fixed: Classical.choice, Quot.sound, propext
MixedNum.C145_atan_real: Classical.choice, Quot.sound, propext
MixedNum.C145_atan_sharp: Classical.choice, Quot.sound, propext
MixedNum.C145_atan_float: Classical.choice, Quot.sound, propext
MixedNum.C146_cos_period: Classical.choice, Quot.sound, propext
MixedNum.C146_sin_of_cos: Classical.choice, Quot.sound, propext
MixedNum.C146_sin_mirror: Classical.choice, Quot.sound, propext
MixedNum.C146_cos_period_real: Classical.choice, Quot.sound, propext
MixedNum.C146_sin_of_cos_real: Classical.choice, Quot.sound, propext
MixedNum.C147_scale: Classical.choice, Quot.sound, propext
MixedNum.C147_half_turn: Classical.choice, Quot.sound, propext
MixedNum.C147_mirror: Classical.choice, Quot.sound, propext
MixedNum.C147_quarter_turn: Classical.choice, Quot.sound, propext
MixedNum.C147_swap: Classical.choice, Quot.sound, propext
MixedNum.C147_diagonal: Classical.choice, Quot.sound, propext
MixedNum.C147_swap_fixed: Classical.choice, Quot.sound, propext
MixedNum.C147_half_turn_fixed: Classical.choice, Quot.sound, propext
MixedNum.C147_mirror_fixed: Classical.choice, Quot.sound, propext
MixedNum.C147_swap_float: Classical.choice, Quot.sound, propext
MixedNum.C147_half_turn_float: Classical.choice, Quot.sound, propext
MixedNum.C148_step_fixed: Classical.choice, Quot.sound, propext
MixedNum.C148_add_fixed: Classical.choice, Quot.sound, propext
MixedNum.C148_mul_fixed: Classical.choice, Quot.sound, propext
MixedNum.C148_base_fixed: Classical.choice, Quot.sound, propext
MixedNum.C148_fixed_not_exact: Classical.choice, Quot.sound, propext
MixedNum.C148_add_float: Classical.choice, Quot.sound, propext
MixedNum.C148_mul_float: Classical.choice, Quot.sound, propext
MixedNum.C148_base_float: Classical.choice, Quot.sound, propext
MixedNum.C148_inverse_float: Classical.choice, Quot.sound, propext
MixedNum.C149_product: Classical.choice, Quot.sound, propext
MixedNum.C149_sum: Classical.choice, Quot.sound, propext
MixedNum.C149_order: Classical.choice, Quot.sound, propext
MixedNum.C149_twice_float: Classical.choice, Quot.sound, propext
MixedNum.C149_half_float: Classical.choice, Quot.sound, propext
MixedNum.C149_product_float: Classical.choice, Quot.sound, propext
MixedNum.C149_order_float: Classical.choice, Quot.sound, propext
MixedNum.C150_monotone: Classical.choice, Quot.sound, propext
MixedNum.C150_monotone_release: Classical.choice, Quot.sound, propext
MixedNum.C150_odd: Classical.choice, Quot.sound, propext
MixedNum.C151_counterexample_fixed: Classical.choice, Quot.sound, propext
MixedNum.C151_rising_fixed_partial: Classical.choice, Quot.sound, propext
MixedNum.C151_falling_fixed_partial: Classical.choice, Quot.sound, propext
MixedNum.C151_strict_fixed_partial: Classical.choice, Quot.sound, propext
MixedNum.C151_counterexample_float: Classical.choice, Quot.sound, propext
MixedNum.C151_rising_float_partial: Classical.choice, Quot.sound, propext
MixedNum.C151_strict_float_partial: Classical.choice, Quot.sound, propext
MixedNum.C151_counterexample_atan: Classical.choice, Quot.sound, propext
MixedNum.C151_atan_float_partial: Classical.choice, Quot.sound, propext
MixedNum.C152_assoc_int_release: Classical.choice, Quot.sound, propext
MixedNum.C152_assoc_int: Classical.choice, Quot.sound, propext
MixedNum.C152_assoc_counterexample: Classical.choice, Quot.sound, propext
MixedNum.C152_assoc_fixed: Classical.choice, Quot.sound, propext
MixedNum.C152_conj_int: Classical.choice, Quot.sound, propext
MixedNum.C152_conj_fixed: Classical.choice, Quot.sound, propext
MixedNum.C152_conj_float: Classical.choice, Quot.sound, propext
MixedNum.C152_scale_int: Classical.choice, Quot.sound, propext
MixedNum.C152_assoc_float: Classical.choice, Quot.sound, propext
MixedNum.C153_fixed: Classical.choice, Quot.sound, propext
MixedNum.C153_float: Classical.choice, Quot.sound, propext
MixedNum.C154_exp_float: Classical.choice, Quot.sound, propext
MixedNum.C154_to_cartesian_float: Classical.choice, Quot.sound, propext
MixedNum.C154_to_polar_float: Classical.choice, Quot.sound, propext
MixedNum.C154_exp_fixed: Classical.choice, Quot.sound, propext
MixedNum.C154_to_cartesian_fixed: Classical.choice, Quot.sound, propext
MixedNum.C154_to_polar_fixed: Classical.choice, Quot.sound, propext
MixedNum.C154_unit_lost: Classical.choice, Quot.sound, propext
MixedNum.C155_zero: Classical.choice, Quot.sound, propext
MixedNum.C155_one: Classical.choice, Quot.sound, propext
MixedNum.C155_add: Classical.choice, Quot.sound, propext
MixedNum.C155_conj: Classical.choice, Quot.sound, propext
MixedNum.C155_tiny: Classical.choice, Quot.sound, propext
MixedNum.C156_real: Classical.choice, Quot.sound, propext
MixedNum.C156_fixed: Classical.choice, Quot.sound, propext
MixedNum.C156_f32: Classical.choice, Quot.sound, propext
MixedNum.C156_f64: Classical.choice, Quot.sound, propext
MixedNum.C157_up: Classical.choice, Quot.sound, propext
MixedNum.C157_down: Classical.choice, Quot.sound, propext
MixedNum.C158_product_fixed: Classical.choice, Quot.sound, propext
MixedNum.C158_sum_fixed: Classical.choice, Quot.sound, propext
MixedNum.C158_inverse_fixed: Classical.choice, Quot.sound, propext
MixedNum.C158_real_fixed: Classical.choice, Quot.sound, propext
MixedNum.C158_product_float: Classical.choice, Quot.sound, propext
MixedNum.C158_inverse_float: Classical.choice, Quot.sound, propext
MixedNum.C158_sum_float: Classical.choice, Quot.sound, propext
MixedNum.C158_real_float: Classical.choice, Quot.sound, propext
MixedNum.C159_counterexample_sqrt: Classical.choice, Quot.sound, propext
MixedNum.C159_counterexample_cos: Classical.choice, Quot.sound, propext
MixedNum.C159_counterexample_cos_real: Classical.choice, Quot.sound, propext
MixedNum.C159_axis_fixed_partial: Classical.choice, Quot.sound, propext
MixedNum.C159_axis_float_partial: Classical.choice, Quot.sound, propext
MixedNum.C159_zero_fixed_partial: Classical.choice, Quot.sound, propext
MixedNum.C159_zero_float_partial: Classical.choice, Quot.sound, propext
MixedNum.C159_mag_float_partial: Classical.choice, Quot.sound, propext
MixedNum.C159_origin_fixed_partial: Classical.choice, Quot.sound, propext
MixedNum.C159_origin_float_partial: Classical.choice, Quot.sound, propext
MixedNum.C160_sin_real: Classical.choice, Quot.sound, propext
MixedNum.C160_cos_real: Classical.choice, Quot.sound, propext
MixedNum.C160_sin_fixed: Classical.choice, Quot.sound, propext
MixedNum.C160_cos_fixed: Classical.choice, Quot.sound, propext
MixedNum.C160_sin_float: Classical.choice, Quot.sound, propext
MixedNum.C160_cos_float: Classical.choice, Quot.sound, propext
MixedNum.C161_counterexample_real: Classical.choice, Quot.sound, propext
MixedNum.C161_counterexample_float: Classical.choice, Quot.sound, propext
MixedNum.C161_counterexample_fixed: Classical.choice, Quot.sound, propext
MixedNum.C161_real_partial: Classical.choice, Quot.sound, propext
MixedNum.C161_smooth_partial: Classical.choice, Quot.sound, propext
MixedNum.C161_float_partial: Classical.choice, Quot.sound, propext
MixedNum.C161_fixed_partial: Classical.choice, Quot.sound, propext
MixedNum.C161_any_build_partial: Classical.choice, Quot.sound, propext
MixedNum.C162_real: Classical.choice, Quot.sound, propext
MixedNum.C162_counterexample_fixed: Classical.choice, Quot.sound, propext
MixedNum.C162_float_partial: Classical.choice, Quot.sound, propext
MixedNum.C162_idempotent_partial: Classical.choice, Quot.sound, propext
MixedNum.C163_real: Classical.choice, Quot.sound, propext
MixedNum.C163_counterexample_fixed: Classical.choice, Quot.sound, propext
MixedNum.C163_fixed_partial: Classical.choice, Quot.sound, propext
MixedNum.C163_mono_float_partial: Classical.choice, Quot.sound, propext
MixedNum.C163_ge_float_partial: Classical.choice, Quot.sound, propext
MixedNum.C164_int: Classical.choice, Quot.sound, propext
MixedNum.C164_sub_int: Classical.choice, Quot.sound, propext
MixedNum.C164_fixed: Classical.choice, Quot.sound, propext
MixedNum.C164_sub_fixed: Classical.choice, Quot.sound, propext
MixedNum.C164_total: Classical.choice, Quot.sound, propext
MixedNum.C164_total_int: Classical.choice, Quot.sound, propext
MixedNum.C164_order_int: Classical.choice, Quot.sound, propext
MixedNum.C164_order_fixed: Classical.choice, Quot.sound, propext
MixedNum.C164_real: Classical.choice, Quot.sound, propext
MixedNum.C164_float: Classical.choice, Quot.sound, propext
MixedNum.C164_float_exact: Classical.choice, Quot.sound, propext
MixedNum.C165_counterexample: Classical.choice, Quot.sound, propext
MixedNum.C165_int_partial: Classical.choice, Quot.sound, propext
MixedNum.C165_fixed_partial: Classical.choice, Quot.sound, propext
MixedNum.C165_real_partial: Classical.choice, Quot.sound, propext
MixedNum.C165_float_partial: Classical.choice, Quot.sound, propext
MixedNum.C166_real: Classical.choice, Quot.sound, propext
MixedNum.C166_int_checked: Classical.choice, Quot.sound, propext
MixedNum.C166_int_wrapping: Classical.choice, Quot.sound, propext
MixedNum.C166_fixed_checked: Classical.choice, Quot.sound, propext
MixedNum.C166_int_returns: Classical.choice, Quot.sound, propext
MixedNum.C166_fixed_returns: Classical.choice, Quot.sound, propext
MixedNum.C166_release_int: Classical.choice, Quot.sound, propext
MixedNum.C166_release_fixed: Classical.choice, Quot.sound, propext
MixedNum.C166_float: Classical.choice, Quot.sound, propext
MixedNum.C167_fixed: Classical.choice, Quot.sound, propext
MixedNum.C167_half_turn: Classical.choice, Quot.sound, propext
MixedNum.C167_drift: Classical.choice, Quot.sound, propext
MixedNum.C167_tone: Classical.choice, Quot.sound, propext
MixedNum.C167_real: Classical.choice, Quot.sound, propext
MixedNum.C167_float: Classical.choice, Quot.sound, propext
MixedNum.C167_tone_float: Classical.choice, Quot.sound, propext
MixedNum.C168_ops_partial: Classical.choice, Quot.sound, propext
MixedNum.C168_counterexample: Classical.choice, Quot.sound, propext
MixedNum.C168_complex_partial: Classical.choice, Quot.sound, propext
MixedNum.C168_div_partial: Classical.choice, Quot.sound, propext
MixedNum.C168_assign_partial: Classical.choice, Quot.sound, propext
MixedNum.C168_scalar_partial: Classical.choice, Quot.sound, propext
MixedNum.C168_powi_partial: Classical.choice, Quot.sound, propext
MixedNum.C168_atan2_partial: Classical.choice, Quot.sound, propext
MixedNum.C168_routines_partial: Classical.choice, Quot.sound, propext
MixedNum.C168_forms_partial: Classical.choice, Quot.sound, propext
MixedNum.C168_polar_partial: Classical.choice, Quot.sound, propext
MixedNum.C169_real: Classical.choice, Quot.sound, propext
MixedNum.C169_int_checked: Classical.choice, Quot.sound, propext
MixedNum.C169_int_wrapping: Classical.choice, Quot.sound, propext
MixedNum.C169_total: Classical.choice, Quot.sound, propext
MixedNum.C169_order: Classical.choice, Quot.sound, propext
MixedNum.C169_int_returns: Classical.choice, Quot.sound, propext
MixedNum.C169_release_int: Classical.choice, Quot.sound, propext
MixedNum.C169_release_fixed: Classical.choice, Quot.sound, propext
MixedNum.C169_fixed_checked: Classical.choice, Quot.sound, propext
MixedNum.C169_fixed_returns: Classical.choice, Quot.sound, propext
MixedNum.C169_decay: Classical.choice, Quot.sound, propext
MixedNum.C169_float: Classical.choice, Quot.sound, propext
MixedNum.C169_float_exact: Classical.choice, Quot.sound, propext
MixedNum.C170_real: Classical.choice, Quot.sound, propext
MixedNum.C170_int_checked: Classical.choice, Quot.sound, propext
MixedNum.C170_int_wrapping: Classical.choice, Quot.sound, propext
MixedNum.C170_total: Classical.choice, Quot.sound, propext
MixedNum.C170_release_int: Classical.choice, Quot.sound, propext
MixedNum.C170_release_fixed: Classical.choice, Quot.sound, propext
MixedNum.C170_fixed_checked: Classical.choice, Quot.sound, propext
MixedNum.C170_fixed_stable: Classical.choice, Quot.sound, propext
MixedNum.C170_fixed_forgets: Classical.choice, Quot.sound, propext
MixedNum.C170_float_stable: Classical.choice, Quot.sound, propext
MixedNum.C171_real: Classical.choice, Quot.sound, propext
MixedNum.C171_real_back: Classical.choice, Quot.sound, propext
MixedNum.C171_same: propext
MixedNum.C171_fixed: Classical.choice, Quot.sound, propext
MixedNum.C171_fixed_size: Classical.choice, Quot.sound, propext
MixedNum.C171_release: Classical.choice, Quot.sound, propext
MixedNum.C171_float: Classical.choice, Quot.sound, propext
MixedNum.C172_real: Classical.choice, Quot.sound, propext
MixedNum.C172_int_checked: Classical.choice, Quot.sound, propext
MixedNum.C172_int_wrapping: Classical.choice, Quot.sound, propext
MixedNum.C172_int_zero: Classical.choice, Quot.sound, propext
MixedNum.C172_fixed_zero: Classical.choice, Quot.sound, propext
MixedNum.C172_fixed_checked: Classical.choice, Quot.sound, propext
MixedNum.C172_fixed_returns: Classical.choice, Quot.sound, propext
MixedNum.C172_fixed_value: Classical.choice, Quot.sound, propext
MixedNum.C172_release_int: Classical.choice, Quot.sound, propext
MixedNum.C172_release_fixed: Classical.choice, Quot.sound, propext
MixedNum.C172_release_angle: Classical.choice, Quot.sound, propext
MixedNum.C172_float: Classical.choice, Quot.sound, propext
MixedNum.C173_real: Classical.choice, Quot.sound, propext
MixedNum.C173_tone: Classical.choice, Quot.sound, propext
MixedNum.C173_fixed: Classical.choice, Quot.sound, propext
MixedNum.C173_release: Classical.choice, Quot.sound, propext
MixedNum.C173_float: Classical.choice, Quot.sound, propext
MixedNum.C174_real: Classical.choice, Quot.sound, propext
MixedNum.C174_bound: Classical.choice, Quot.sound, propext
MixedNum.C174_float: Classical.choice, Quot.sound, propext
MixedNum.C174_fixed: Classical.choice, Quot.sound, propext
MixedNum.C174_release: Classical.choice, Quot.sound, propext
MixedNum.C175_real: Classical.choice, Quot.sound, propext
MixedNum.C175_turned: Classical.choice, Quot.sound, propext
MixedNum.C175_fixed: Classical.choice, Quot.sound, propext
MixedNum.C175_release: Classical.choice, Quot.sound, propext
MixedNum.C175_float: Classical.choice, Quot.sound, propext
MixedNum.C176_real: Classical.choice, Quot.sound, propext
MixedNum.C176_float: Classical.choice, Quot.sound, propext
MixedNum.C176_fixed: Classical.choice, Quot.sound, propext
MixedNum.C176_release: Classical.choice, Quot.sound, propext
MixedNum.C177_bins: Classical.choice, Quot.sound, propext
MixedNum.C177_there_and_back: Classical.choice, Quot.sound, propext
MixedNum.C177_energy: Classical.choice, Quot.sound, propext
MixedNum.C177_faithful: Classical.choice, Quot.sound, propext
MixedNum.C177_shift: Classical.choice, Quot.sound, propext
MixedNum.C177_linear: Classical.choice, Quot.sound, propext
MixedNum.C177_convolution: Classical.choice, Quot.sound, propext
MixedNum.C177_real_input: Classical.choice, Quot.sound, propext
MixedNum.C178_times_infinity: Classical.choice, Quot.sound, propext
MixedNum.C178_over_infinity: Classical.choice, Quot.sound, propext
MixedNum.C178_infinite_part: Classical.choice, Quot.sound, propext
MixedNum.C178_add_sub: Classical.choice, Quot.sound, propext
MixedNum.C178_conj: none
MixedNum.C178_polar: Classical.choice, Quot.sound, propext
MixedNum.C178_real_infinity: Classical.choice, Quot.sound, propext
MixedNum.C179_i32_fixed: Classical.choice, Quot.sound, propext
MixedNum.C179_i32_int: Classical.choice, Quot.sound, propext
MixedNum.C179_i32_float: Classical.choice, Quot.sound, propext
MixedNum.C179_f64_fixed: Classical.choice, Quot.sound, propext
MixedNum.C179_f64_int: Classical.choice, Quot.sound, propext
MixedNum.C179_f64_float: Classical.choice, Quot.sound, propext
MixedNum.C179_decimal: Classical.choice, Quot.sound, propext
MixedNum.C179_decimal_fixed: Classical.choice, Quot.sound, propext
MixedNum.C179_decimal_float: Classical.choice, Quot.sound, propext
