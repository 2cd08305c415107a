{
 "out1#9": [
  "C66_reads (added)",
  "C66_generic (added)"
 ],
 "out1#40": [
  "C69_fixed (added)"
 ],
 "out1#43": [
  "C68_exact (added)",
  "C68_nearest (added)"
 ],
 "out1#44": [
  "C67_special (added)"
 ],
 "out1#46": [
  "C95_order (added)"
 ],
 "out1#48": [
  "C93_abs (added)",
  "C92_sqrt (added)"
 ],
 "out1b#4": [
  "C95_order (added)"
 ],
 "out2#40": [
  "C109_constants_int (added)",
  "C109_constants_fixed (added)",
  "C57_polar_real (added)",
  "C109_constants_float (added)"
 ],
 "out4#26": [
  "C116_formats (added)"
 ],
 "out4#29": [
  "C116_formats (added)"
 ],
 "out4#35": [
  "C117_pretty (added)"
 ],
 "out1#33": [
  "C179_f64_fixed"
 ],
 "out2#71": [
  "C179_i32_int"
 ],
 "out2#72": [
  "C179_f64_int"
 ],
 "out3#91": [
  "C179_f64_float"
 ],
 "out8#7": [
  "C179_i32_float"
 ],
 "out3#0": [
  "C71_counterexample_passes"
 ],
 "out3#86": [
  "C93_neg"
 ]
}