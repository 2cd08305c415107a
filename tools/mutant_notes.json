{
 "out3#88": "equivalent: the Boolean argument of ofExact is only the sign given to an exact zero, so both sides are the same value",
 "out4#0": "equivalent: in a do block the first argument of bind is a single read, store or evaluation, which leaves the state as it was whenever it panics",
 "out4#18": "equivalent: zero is the default of every component type",
 "out1#11": "no false instance found: at 12/16 the neighbouring entry meets the accuracy bound too (evaluated on f32)",
 "out2#56": "equivalent: a phase of exactly -pi is moved to pi by the first loop and back by the second",
 "out3#0": "C71_counterexample_passes, which gives the exact pass at which the counter overflows, is false of it; too many passes to evaluate",
 "out3#1": "equivalent for callers: with an infinite argument neither returns, and a finite argument needs at most a few hundred passes",
 "out3#2": "C71_counterexample, which says the loop never ends, is false of it; too many passes to evaluate",
 "out3#11": "the edited text does not elaborate (the type of the unused table entry is no longer determined), so nothing was tested; out1#10 and out3#12 test the table",
 "out3#95": "the definitions of the model that rely on its range do not elaborate",
 "out5#0": "the definitions of the model that rely on the range do not elaborate",
 "out5#1": "the definitions of the model that rely on the range do not elaborate",
 "out5#26": "equivalent: the exponent is odd here, so halving it or its predecessor gives the same",
 "out9t#0": "the library was not rebuilt; the theorems named have an instance that Verif.Tests.Instances evaluates to false",
 "out9t#1": "only these modules were rebuilt: Verif.Props.Forms",
 "out9t#2": "only these modules were rebuilt: Verif.Props.Forms",
 "out9t#3": "only these modules were rebuilt: Verif.Props.Forms",
 "out9t#4": "only these modules were rebuilt: Verif.Props.Forms",
 "out9t#5": "only these modules were rebuilt: Verif.Props.Forms",
 "out9t#6": "only these modules were rebuilt: Verif.Props.Forms",
 "out9t#7": "only these modules were rebuilt: Verif.Props.Forms",
 "out9t#8": "only these modules were rebuilt: Verif.Props.Conv, Verif.Props.RoundTrip",
 "out9t#9": "only these modules were rebuilt: Verif.Props.Conv, Verif.Props.Mul",
 "out9t#10": "the library was not rebuilt; the theorems named have an instance that Verif.Tests.Instances evaluates to false",
 "out9t#11": "only these modules were rebuilt: Verif.Props.Misc; neither rules the edit out, and the rest of the library was not rebuilt, so the outcome is open",
 "out9t#12": "the library was not rebuilt; the theorems named have an instance that Verif.Tests.Instances evaluates to false",
 "out9t#13": "only these modules were rebuilt: Verif.Props.Div",
 "out9t#14": "only these modules were rebuilt: Verif.Props.Div",
 "out9t#15": "only these modules were rebuilt: Verif.Props.Polar, Verif.Props.Forms",
 "out9t#16": "only these modules were rebuilt: Verif.Props.PowFixed; neither rules the edit out, and the rest of the library was not rebuilt, so the outcome is open",
 "out9t#17": "only these modules were rebuilt: Verif.Props.ExactFloat, Verif.Props.DivAssignZero, Verif.Props.Div",
 "out9t#18": "only these modules were rebuilt: Verif.Props.Polar",
 "out9t#19": "only these modules were rebuilt: Verif.Props.Polar",
 "out9t#20": "only these modules were rebuilt: Verif.Props.Polar",
 "out9t#21": "only these modules were rebuilt: Verif.Props.Polar",
 "out9t#22": "the library was not rebuilt; the theorems named have an instance that Verif.Tests.Instances evaluates to false",
 "out9t#23": "the library was not rebuilt; the theorems named have an instance that Verif.Tests.Instances evaluates to false",
 "out9t#24": "the library was not rebuilt; the theorems named have an instance that Verif.Tests.Instances evaluates to false",
 "out9t#25": "the library was not rebuilt; the theorems named have an instance that Verif.Tests.Instances evaluates to false",
 "out9t#26": "the library was not rebuilt; the theorems named have an instance that Verif.Tests.Instances evaluates to false",
 "out9t#27": "the library was not rebuilt; the theorems named have an instance that Verif.Tests.Instances evaluates to false",
 "out9t#28": "the library was not rebuilt; the theorems named have an instance that Verif.Tests.Instances evaluates to false",
 "out9t#29": "the library was not rebuilt; the theorems named have an instance that Verif.Tests.Instances evaluates to false",
 "out9t#30": "the library was not rebuilt; the theorems named have an instance that Verif.Tests.Instances evaluates to false",
 "out9t#31": "the library was not rebuilt; the theorems named have an instance that Verif.Tests.Instances evaluates to false",
 "out9t#32": "the library was not rebuilt; the theorems named have an instance that Verif.Tests.Instances evaluates to false",
 "out9t#33": "the library was not rebuilt; the theorems named have an instance that Verif.Tests.Instances evaluates to false",
 "out9t#34": "the library was not rebuilt; the theorems named have an instance that Verif.Tests.Instances evaluates to false",
 "out9t#35": "the library was not rebuilt; the theorems named have an instance that Verif.Tests.Instances evaluates to false",
 "out9t#36": "the library was not rebuilt; the theorems named have an instance that Verif.Tests.Instances evaluates to false",
 "out9t#37": "the library was not rebuilt; the theorems named have an instance that Verif.Tests.Instances evaluates to false",
 "out9t#38": "the library was not rebuilt; the theorems named have an instance that Verif.Tests.Instances evaluates to false",
 "out9t#39": "the library was not rebuilt; the theorems named have an instance that Verif.Tests.Instances evaluates to false",
 "out9t#40": "the library was not rebuilt; the theorems named have an instance that Verif.Tests.Instances evaluates to false",
 "out9t#41": "the library was not rebuilt; the theorems named have an instance that Verif.Tests.Instances evaluates to false",
 "out9t#42": "the library was not rebuilt; the theorems named have an instance that Verif.Tests.Instances evaluates to false",
 "out9t#43": "the library was not rebuilt; the theorems named have an instance that Verif.Tests.Instances evaluates to false"
}