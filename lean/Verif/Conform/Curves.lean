import Verif.Conform.Basic
/-
The tests of `poisson_choice` and `gaussian_choice` in `/repo/tests/test_emitters_choice.py`, run on
the model. Made by `tools/conform_world.py` from the text of the tests; it computed the weights as
doubles (`Model/Pdf` has the curves over the reals, which cannot be evaluated).
-/
namespace Fauxdoc
namespace Conform

/-! `test_poisson_choice`, line 623 -/
example : choice [1, 2, 3, 4, 5, 6, 7, 8, 9] (some [828390857088487 / 2^51, 828390857088487 /
    2^52, 8836169142277195 / 2^57, 8836169142277195 / 2^59, 1767233828455439 / 2^59,
    4712623542547837 / 2^63, 673231934649691 / 2^63, 673231934649691 / 2^66, 4787427090842247 /
    2^72]) none true false (some 999) [.gives [2, 1, 2, 1, 1, 1, 2, 1, 2, 2, 1, 5, 1, 1, 1, 2,
    1, 3, 4, 1]] = true := by decide +kernel
example : choice [1, 2, 3, 4, 5, 6, 7, 8, 9] (some [3014666718298763 / 2^53, 282625004840509 /
    2^50, 282625004840509 / 2^51, 847875014521527 / 2^54, 2034900034851665 / 2^57,
    2034900034851665 / 2^59, 3488400059745711 / 2^62, 5232600089618567 / 2^65, 6976800119491423
    / 2^68]) none true false (some 999) [.gives [3, 1, 3, 2, 2, 1, 3, 1, 3, 3, 1, 6, 1, 1, 2, 2,
    1, 3, 5, 1]] = true := by decide +kernel
example : choice [1, 2, 3, 4, 5, 6, 7, 8, 9] (some [6520040733916207 / 2^56, 2608016293566483 /
    2^59, 5563768092941831 / 2^65, 8902028948706929 / 2^71, 5697298527172435 / 2^76,
    6077118428983931 / 2^82, 5556222563642451 / 2^88, 2222489025456981 / 2^93, 6321746561299857
    / 2^101]) none true false (some 999) [.gives [1, 1, 1, 1, 1, 1, 1, 1, 1, 1, 1, 2, 1, 1, 1,
    1, 1, 1, 2, 1]] = true := by decide +kernel
example : choice [1, 2, 3, 4, 5, 6, 7, 8, 9] (some [1218991862308979 / 2^52, 1218991862308979 /
    2^52, 6501289932314555 / 2^55, 6501289932314555 / 2^56, 1300257986462911 / 2^55,
    6934709261135525 / 2^59, 3962691006363157 / 2^60, 3962691006363157 / 2^62, 7044784011312279
    / 2^65]) none true false (some 999) [.gives [3, 1, 4, 2, 2, 1, 3, 2, 3, 4, 1, 6, 1, 1, 2, 3,
    1, 4, 6, 1]] = true := by decide +kernel
example : choice [1, 2, 3, 4, 5, 6, 7, 8, 9] (some [5381304541185155 / 2^55, 8071956811777733 /
    2^55, 8071956811777733 / 2^55, 1513491902208325 / 2^53, 7264761130599959 / 2^56,
    908095141324995 / 2^54, 6226938111942823 / 2^58, 4670203583957117 / 2^59, 3113469055971411 /
    2^60]) none true false (some 999) [.gives [4, 1, 5, 3, 3, 1, 4, 2, 4, 5, 1, 8, 2, 2, 3, 4,
    2, 5, 7, 2]] = true := by decide +kernel
example : choice [1, 2, 3, 4, 5, 6, 7, 8, 9] (some [4187404426464737 / 2^63, 5234255533080921 /
    2^61, 8723759221801535 / 2^60, 5452349513625959 / 2^58, 5452349513625959 / 2^57,
    4543624594688299 / 2^56, 6490892278126143 / 2^56, 4056807673828839 / 2^55, 4507564082032043
    / 2^55]) none true false (some 999) [.gives [9, 5, 9, 8, 8, 5, 9, 7, 9, 9, 5, 9, 6, 6, 8, 8,
    6, 9, 9, 6]] = true := by decide +kernel
example : choice [1, 2, 3, 4, 5, 6, 7, 8, 9] (some [6229454580895489 / 2^77, 7786818226119361 /
    2^74, 6489015188432801 / 2^71, 8111268985541001 / 2^69, 8111268985541001 / 2^67,
    6759390821284167 / 2^65, 4828136300917263 / 2^63, 3017585188073289 / 2^61, 6705744862385087
    / 2^61]) none true false (some 999) [.gives [9, 7, 9, 9, 9, 7, 9, 8, 9, 9, 7, 9, 8, 8, 9, 9,
    8, 9, 9, 8]] = true := by decide +kernel
example : choice [1, 2, 3, 4, 5, 6, 7, 8, 9] (some [828390857088487 / 2^51, 828390857088487 /
    2^52, 8836169142277195 / 2^57, 3602879701896397 / 2^56, 3602879701896397 / 2^56,
    3602879701896397 / 2^56, 3602879701896397 / 2^56, 3602879701896397 / 2^56, 3602879701896397
    / 2^56]) none true false (some 999) [.gives [6, 1, 7, 2, 2, 1, 6, 1, 6, 7, 1, 9, 1, 1, 2, 4,
    1, 7, 9, 1]] = true := by decide +kernel
example : choice [1, 2, 3, 4, 5, 6, 7, 8, 9] (some [1 / 2^1, 1 / 2^1, 1 / 2^1, 1 / 2^1, 1 / 2^1,
    1 / 2^1, 1 / 2^1, 1 / 2^1, 1 / 2^1]) none true false (some 999) [.gives [8, 1, 8, 6, 5, 2,
    8, 3, 8, 8, 1, 9, 2, 3, 6, 7, 3, 8, 9, 3]] = true := by decide +kernel
/-! `test_gaussian_choice`, line 654 -/
example : choice [1, 2, 3, 4, 5, 6, 7, 8, 9] (some [1089739264778983 / 2^52, 3890459146722667 /
    2^56, 5109573339281033 / 2^60, 4937463848023221 / 2^65, 7020834405809471 / 2^72,
    7345291654105085 / 2^80, 5654118070595915 / 2^89, 6404514471561269 / 2^100, 2668781801131293
    / 2^111]) none true false (some 999) [.gives [1, 1, 2, 1, 1, 1, 1, 1, 1, 2, 1, 3, 1, 1, 1,
    1, 1, 2, 3, 1]] = true := by decide +kernel
example : choice [1, 2, 3, 4, 5, 6, 7, 8, 9] (some [7186705221432913 / 2^54, 1089739264778983 /
    2^52, 3890459146722667 / 2^56, 5109573339281033 / 2^60, 4937463848023221 / 2^65,
    7020834405809471 / 2^72, 7345291654105085 / 2^80, 5654118070595915 / 2^89, 6404514471561269
    / 2^100]) none true false (some 999) [.gives [2, 1, 2, 2, 1, 1, 2, 1, 2, 2, 1, 4, 1, 1, 2,
    2, 1, 2, 3, 1]] = true := by decide +kernel
example : choice [1, 2, 3, 4, 5, 6, 7, 8, 9] (some [1089739264778983 / 2^52, 7186705221432913 /
    2^54, 1089739264778983 / 2^52, 3890459146722667 / 2^56, 5109573339281033 / 2^60,
    4937463848023221 / 2^65, 7020834405809471 / 2^72, 7345291654105085 / 2^80, 5654118070595915
    / 2^89]) none true false (some 999) [.gives [3, 1, 3, 2, 2, 1, 3, 2, 3, 3, 1, 4, 1, 2, 2, 3,
    1, 3, 4, 1]] = true := by decide +kernel
example : choice [1, 2, 3, 4, 5, 6, 7, 8, 9] (some [3890459146722667 / 2^56, 1089739264778983 /
    2^52, 7186705221432913 / 2^54, 1089739264778983 / 2^52, 3890459146722667 / 2^56,
    5109573339281033 / 2^60, 4937463848023221 / 2^65, 7020834405809471 / 2^72, 7345291654105085
    / 2^80]) none true false (some 999) [.gives [4, 2, 4, 3, 3, 2, 4, 3, 4, 4, 2, 5, 2, 2, 3, 4,
    2, 4, 5, 2]] = true := by decide +kernel
example : choice [1, 2, 3, 4, 5, 6, 7, 8, 9] (some [2668781801131293 / 2^111, 6404514471561269 /
    2^100, 5654118070595915 / 2^89, 7345291654105085 / 2^80, 7020834405809471 / 2^72,
    4937463848023221 / 2^65, 5109573339281033 / 2^60, 3890459146722667 / 2^56, 1089739264778983
    / 2^52]) none true false (some 999) [.gives [9, 8, 9, 9, 9, 8, 9, 9, 9, 9, 8, 9, 8, 9, 9, 9,
    9, 9, 9, 9]] = true := by decide +kernel
example : choice [1, 2, 3, 4, 5, 6, 7, 8, 9] (some [1355547465874357 / 2^312, 4373335072788145 /
    2^287, 1297646212370293 / 2^260, 70823172388529 / 2^232, 2912258486236449 / 2^215,
    5506808749581543 / 2^195, 7661354918604525 / 2^176, 7842358360029957 / 2^158,
    1476601509195405 / 2^139]) none true false (some 999) [.gives [9, 9, 9, 9, 9, 9, 9, 9, 9, 9,
    9, 9, 9, 9, 9, 9, 9, 9, 9, 9]] = true := by decide +kernel
example : choice [1, 2, 3, 4, 5, 6, 7, 8, 9] (some [7186705221432913 / 2^53, 3890459146722667 /
    2^55, 4937463848023221 / 2^64, 7345291654105085 / 2^79, 6404514471561269 / 2^99,
    3272920291502829 / 2^124, 7842358360029957 / 2^157, 5506808749581543 / 2^194, 70823172388529
    / 2^231]) none true false (some 999) [.gives [1, 1, 1, 1, 1, 1, 1, 1, 1, 1, 1, 2, 1, 1, 1,
    1, 1, 1, 2, 1]] = true := by decide +kernel
example : choice [1, 2, 3, 4, 5, 6, 7, 8, 9] (some [4791136814288609 / 2^54, 1918221224846285 /
    2^53, 7878780919421997 / 2^56, 5187278862296889 / 2^57, 8759118235356765 / 2^60,
    592708873642493 / 2^59, 1645821282674407 / 2^64, 183140403382151 / 2^65, 6690149920632827 /
    2^75]) none true false (some 999) [.gives [3, 1, 3, 2, 2, 1, 3, 1, 3, 3, 1, 5, 1, 1, 2, 2,
    1, 3, 4, 1]] = true := by decide +kernel
example : choice [1, 2, 3, 4, 5, 6, 7, 8, 9] (some [7186705221432913 / 2^55, 6342245097703085 /
    2^55, 1089739264778983 / 2^53, 4666363164630661 / 2^56, 3890459146722667 / 2^57,
    5052188644561495 / 2^59, 5109573339281033 / 2^61, 251533661454129 / 2^59, 4937463848023221 /
    2^66]) none true false (some 999) [.gives [3, 1, 4, 2, 2, 1, 3, 1, 3, 4, 1, 6, 1, 1, 2, 3,
    1, 4, 6, 1]] = true := by decide +kernel
example : choice [1, 2, 3, 4, 5, 6, 7, 8, 9] (some [2275583382430391 / 2^57, 3197075390272131 /
    2^57, 8631200748086649 / 2^58, 2798515983561423 / 2^56, 1743582823646373 / 2^55,
    4174895261020781 / 2^56, 2401136315862705 / 2^55, 663416506656691 / 2^53, 2817759569398109 /
    2^55]) none true false (some 999) [.gives [8, 2, 9, 7, 6, 3, 8, 5, 8, 9, 3, 9, 4, 5, 7, 8,
    5, 9, 9, 4]] = true := by decide +kernel
example : choice [1, 2, 3, 4, 5, 6, 7, 8, 9] (some [1089739264778983 / 2^52, 3890459146722667 /
    2^56, 5764607523034235 / 2^59, 5764607523034235 / 2^59, 5764607523034235 / 2^59,
    5764607523034235 / 2^59, 5764607523034235 / 2^59, 5764607523034235 / 2^59, 5764607523034235
    / 2^59]) none true false (some 999) [.gives [2, 1, 5, 1, 1, 1, 2, 1, 2, 4, 1, 9, 1, 1, 1, 2,
    1, 5, 9, 1]] = true := by decide +kernel
example : choice [1, 2, 3, 4, 5, 6, 7, 8, 9] (some [1089739264778983 / 2^52, 3602879701896397 /
    2^55, 3602879701896397 / 2^55, 3602879701896397 / 2^55, 3602879701896397 / 2^55,
    3602879701896397 / 2^55, 3602879701896397 / 2^55, 3602879701896397 / 2^55, 3602879701896397
    / 2^55]) none true false (some 999) [.gives [7, 1, 8, 5, 4, 1, 7, 2, 7, 8, 1, 9, 1, 2, 5, 6,
    2, 8, 9, 1]] = true := by decide +kernel

end Conform
end Fauxdoc
