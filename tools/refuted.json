{
"out1#3": [
"C116_formats",
"C61_layout"
],
"out1#5": [
"C61_layout"
],
"out1#6": [
"C61_layout"
],
"out1#8": [
"C116_formats",
"C60_checked",
"C61_layout"
],
"out1#9": [
"C66_reads"
],
"out1#10": [
"C49_accuracy",
"C70_accuracy",
"C70_f32"
],
"out1#12": [
"C159_counterexample_sqrt",
"C49_accuracy",
"C70_f32"
],
"out1#13": [
"C159_counterexample_sqrt",
"C49_accuracy",
"C49_negative",
"C70_accuracy",
"C70_f32"
],
"out1#14": [
"C159_counterexample_sqrt",
"C49_accuracy",
"C49_negative",
"C70_accuracy",
"C70_f32"
],
"out1#15": [
"C49_negative",
"C70_f32"
],
"out1#16": [
"C159_counterexample_sqrt",
"C49_accuracy",
"C49_negative",
"C70_accuracy",
"C70_f32"
],
"out1#17": [
"C159_counterexample_sqrt"
],
"out1#18": [
"C159_counterexample_sqrt",
"C49_accuracy",
"C49_negative",
"C70_accuracy",
"C70_f32"
],
"out1#19": [
"C159_counterexample_sqrt",
"C49_accuracy",
"C49_negative",
"C70_accuracy",
"C70_f32"
],
"out1#20": [
"C79_f32"
],
"out1#21": [
"C65_accuracy",
"C79_f32"
],
"out1#22": [
"C65_axes",
"C79_f32"
],
"out1#23": [
"C147_diagonal",
"C147_half_turn_fixed",
"C147_mirror_fixed",
"C65_accuracy",
"C79_f32"
],
"out1#24": [
"C147_half_turn_fixed",
"C147_mirror_fixed",
"C65_accuracy",
"C79_f32"
],
"out1#25": [
"C147_mirror_fixed",
"C65_accuracy",
"C79_f32"
],
"out1#26": [
"C147_half_turn_fixed",
"C65_accuracy",
"C79_f32"
],
"out1#27": [
"C65_axes",
"C79_f32"
],
"out1#28": [
"C147_diagonal",
"C147_half_turn_fixed",
"C147_mirror_fixed"
],
"out1#30": [
"C109_scale_fixed",
"C113_fixed_checked",
"C159_counterexample_sqrt"
],
"out1#31": [
"C113_fixed_checked"
],
"out1#32": [
"C113_fixed_checked",
"C126_div_zero"
],
"out1#33": [
"C179_f64_fixed"
],
"out1#38": [
"C57_fixed"
],
"out1#40": [
"C69_fixed"
],
"out1#43": [
"C179_f64_fixed",
"C68_nearest"
],
"out1#44": [
"C67_special"
],
"out1#45": [
"C159_counterexample_sqrt",
"C70_accuracy",
"C70_f32",
"C76_f32",
"C79_f32",
"C81_whole",
"C82_scalar",
"C83_whole"
],
"out1#46": [
"C95_nan"
],
"out1#48": [
"C70_f32",
"C79_f32",
"C93_abs"
],
"out1#49": [
"C168_ops_partial"
],
"out1b#4": [
"C95_nan"
],
"out1b#5": [
"C70_f32",
"C79_f32",
"C93_abs"
],
"out2#40": [
"C109_constants_float"
],
"out2#50": [
"C64_order"
],
"out2#52": [
"C76_f32"
],
"out2#53": [
"C76_f32"
],
"out2#54": [
"C76_f32"
],
"out2#57": [
"C30_wrap_fixed"
],
"out2#58": [
"C30_wrap_fixed"
],
"out2#62": [
"C25_zero_exponent"
],
"out2#63": [
"C26_panics"
],
"out2#65": [
"C01_add_fixed",
"C01_add_int",
"C01_sub_int",
"C14_fixed_min",
"C14_int"
],
"out2#67": [
"C67_truncates"
],
"out2#68": [
"C113_int_checked",
"C22_int_nonzero"
],
"out2#69": [
"C13_overflow_iff",
"C22_int_nonzero"
],
"out2#70": [
"C67_truncates"
],
"out2#77": [
"C14_int"
],
"out2#79": [
"C159_counterexample_sqrt",
"C70_accuracy",
"C70_f32",
"C79_f32",
"C81_whole"
],
"out2#80": [
"C76_f32",
"C81_whole"
],
"out2#83": [
"C82_scalar"
],
"out2#91": [
"C94_pi_f64"
],
"out3#3": [
"C159_counterexample_sqrt",
"C49_accuracy",
"C49_negative",
"C70_accuracy",
"C70_f32"
],
"out3#4": [
"C159_counterexample_sqrt"
],
"out3#5": [
"C49_accuracy",
"C49_negative",
"C70_f32"
],
"out3#6": [
"C49_accuracy",
"C49_negative",
"C70_f32"
],
"out3#8": [
"C159_counterexample_sqrt"
],
"out3#9": [
"C49_negative",
"C70_f32"
],
"out3#10": [
"C49_accuracy",
"C70_accuracy",
"C70_f32"
],
"out3#12": [
"C49_accuracy",
"C70_accuracy",
"C70_f32"
],
"out3#68": [
"C64_order"
],
"out3#70": [
"C01_add_fixed"
],
"out3#71": [
"C14_fixed",
"C14_fixed_min"
],
"out3#73": [
"C58_pi"
],
"out3#74": [
"C01_sub_int",
"C113_int_checked",
"C116_formats",
"C126_counterexample",
"C60_checked",
"C61_layout"
],
"out3#75": [
"C116_formats",
"C126_div_zero",
"C57_int",
"C60_checked",
"C61_layout"
],
"out3#80": [
"C26_panics"
],
"out3#81": [
"C25_int_powi"
],
"out3#82": [
"C76_f32"
],
"out3#83": [
"C65_axes",
"C79_f32"
],
"out3#84": [
"C147_half_turn_fixed",
"C65_accuracy",
"C79_f32"
],
"out3#85": [
"C65_axes",
"C79_f32"
],
"out3#86": [
"C93_neg"
],
"out3#92": [
"C68_nearest",
"C82_add"
],
"out3#93": [
"C82_scalar"
],
"out3#94": [
"C94_pi_f32"
],
"out3#96": [
"C117_pretty",
"C66_reads"
],
"out3#98": [
"C61_layout"
],
"out4#6": [
"C126_add_int"
],
"out4#7": [
"C126_add_int"
],
"out4#8": [
"C126_counterexample",
"C126_value"
],
"out4#9": [
"C126_counterexample"
],
"out4#10": [
"C126_counterexample",
"C126_value"
],
"out4#11": [
"C126_div_zero"
],
"out4#12": [
"C126_div_zero"
],
"out4#13": [
"C126_add_int",
"C126_div_zero",
"C126_value"
],
"out4#19": [
"C61_layout"
],
"out4#20": [
"C116_formats",
"C61_layout"
],
"out4#21": [
"C116_formats",
"C61_layout"
],
"out4#24": [
"C116_formats",
"C60_checked",
"C61_layout"
],
"out4#25": [
"C61_layout"
],
"out4#26": [
"C116_formats"
],
"out4#27": [
"C116_formats"
],
"out4#28": [
"C116_formats"
],
"out4#29": [
"C116_formats"
],
"out4#30": [
"C116_formats"
],
"out4#31": [
"C116_formats"
],
"out4#35": [
"C117_pretty"
],
"out5#2": [
"C01_add_fixed",
"C01_add_int",
"C01_sub_int",
"C113_int_checked",
"C126_add_int",
"C126_counterexample",
"C14_fixed",
"C14_int",
"C26_panics"
],
"out5#8": [
"C178_conj",
"C93_neg"
],
"out5#11": [
"C178_times_infinity"
],
"out5#12": [
"C178_times_infinity"
],
"out5#15": [
"C178_infinite_part"
],
"out5#22": [
"C71_nan_partial",
"C95_nan"
],
"out2#71": [
"C179_i32_int"
],
"out2#72": [
"C179_f64_int"
],
"out3#91": [
"C179_f64_float"
],
"out5#27": [
"C67_truncates"
],
"out5#30": [
"C65_accuracy",
"C79_f32"
],
"out5#31": [
"C147_half_turn_fixed",
"C65_accuracy",
"C79_f32"
],
"out5#32": [
"C147_half_turn_fixed",
"C65_accuracy",
"C79_f32"
],
"out5#33": [
"C147_half_turn_fixed"
],
"out5#34": [
"C147_half_turn_fixed",
"C147_mirror_fixed"
],
"out5#35": [
"C147_half_turn_fixed"
],
"out5#36": [
"C147_half_turn_fixed",
"C147_mirror_fixed",
"C65_accuracy",
"C79_f32"
],
"out5#37": [
"C65_axes",
"C79_f32"
],
"out5#38": [
"C147_mirror_fixed",
"C65_accuracy",
"C79_f32"
],
"out5#39": [
"C147_diagonal",
"C65_accuracy",
"C79_f32"
],
"out5#41": [
"C76_f32"
],
"out8#10": [
"C109_constants_float"
],
"out8#14": [
"C93_abs"
],
"out8#15": [
"C93_neg"
],
"out2#66": [
"C01_add_fixed",
"C01_add_int",
"C01_sub_int",
"C113_int_checked",
"C14_fixed",
"C14_int"
],
"out8#7": [
"C179_i32_float"
]
}