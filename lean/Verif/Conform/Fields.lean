import Verif.Conform.Callbacks
/-
Tests with tables of expected values in `/repo/tests/test_profile.py`,
`/repo/tests/test_emitters_fromfields.py` and `/repo/tests/test_emitters_wrappers.py`, run on the
model. Made by `tools/conform_world.py` from the text of the tests; the callbacks are in
`Conform/Callbacks`.
-/
namespace Fauxdoc
namespace Conform
open World

/-! `test_field_output_repeat_and_gate`, line 130 -/
example : holds (field "subjects" subjects none none false (some 999)) (fun r => each r
    (["crazy", "warm", "eat", "eat", "sluggish", "happy", "happy", "snowstorm", "crazy",
    "flautist"].map s)) = true := by decide +kernel
example : holds (field "subjects" subjects (some (static (.int 0))) none false (some 999)) (fun
    r => each r [(.list []), (.list []), (.list []), (.list []), (.list []), (.list []), (.list
    []), (.list []), (.list []), (.list [])]) = true := by decide +kernel
example : holds (field "subjects" subjects (some (static (.int 1))) none false (some 999)) (fun
    r => each r [(.list [(s "crazy")]), (.list [(s "warm")]), (.list [(s "eat")]), (.list [(s
    "eat")]), (.list [(s "sluggish")]), (.list [(s "happy")]), (.list [(s "happy")]), (.list [(s
    "snowstorm")]), (.list [(s "crazy")]), (.list [(s "flautist")])]) = true := by
    decide +kernel
example : holds (field "subjects" subjects (some (static (.int 2))) none false (some 999)) (fun
    r => each r [(.list [(s "eat"), (s "bicycle")]), (.list [(s "crazy"), (s "yellow")]), (.list
    [(s "flautist"), (s "warm")]), (.list [(s "eat"), (s "zebra")]), (.list [(s "eat"), (s
    "crazy")]), (.list [(s "warm"), (s "chairs")]), (.list [(s "snowstorm"), (s "zebra")]),
    (.list [(s "yellow"), (s "sluggish")]), (.list [(s "zebra"), (s "crazy")]), (.list [(s
    "chairs"), (s "snowstorm")])]) = true := by decide +kernel
example : holds (field "subjects" subjects (some (pick (ints 1 5) (some [1218991862308979 /
    2^52, 1218991862308979 / 2^52, 6501289932314555 / 2^55, 6501289932314555 / 2^56,
    1300257986462911 / 2^55]))) none false (some 999)) (fun r => each r [(.list [(s "eat"), (s
    "bicycle"), (s "crazy")]), (.list [(s "eat")]), (.list [(s "yellow"), (s "flautist"), (s
    "crazy"), (s "happy")]), (.list [(s "happy"), (s "happy")]), (.list [(s "eat"), (s
    "happy")]), (.list [(s "zebra")]), (.list [(s "warm"), (s "chairs"), (s "bicycle")]), (.list
    [(s "sympathy")]), (.list [(s "sympathy"), (s "eat"), (s "chairs")]), (.list [(s "crazy"),
    (s "sympathy"), (s "zebra")])]) = true := by decide +kernel
example : holds (field "subjects" subjects (some (pick (ints 0 9) (some [828390857088487 / 2^51,
    828390857088487 / 2^52, 8836169142277195 / 2^57, 8836169142277195 / 2^59, 1767233828455439 /
    2^59, 4712623542547837 / 2^63, 673231934649691 / 2^63, 673231934649691 / 2^66,
    4787427090842247 / 2^72, 1914970836336899 / 2^74]))) none false (some 999)) (fun r => each r
    [(.list [(s "crazy")]), (.list []), (.list [(s "warm")]), (.list []), (.list []), (.list
    []), (.list [(s "eat")]), (.list []), (.list [(s "eat")]), (.list [(s "sluggish")])]) = true
    := by decide +kernel
example : holds (field "subjects" subjects (some (pick (ints 1 5) (some [828390857088487 / 2^51,
    828390857088487 / 2^52, 8836169142277195 / 2^57, 8836169142277195 / 2^59, 1767233828455439 /
    2^59]))) none false (some 999)) (fun r => each r [(.list [(s "eat"), (s "bicycle")]), (.list
    [(s "eat")]), (.list [(s "yellow"), (s "flautist")]), (.list [(s "snowstorm")]), (.list [(s
    "crazy")]), (.list [(s "flautist")]), (.list [(s "happy"), (s "happy")]), (.list [(s
    "warm")]), (.list [(s "happy"), (s "crazy")]), (.list [(s "warm"), (s "chairs")])]) = true
    := by decide +kernel
example : holds (field "subjects" subjects none (some (withChance 0)) false (some 999)) (fun r
    => each r [.none, .none, .none, .none, .none, .none, .none, .none, .none, .none]) = true :=
    by decide +kernel
example : holds (field "subjects" subjects none (some (withChance (1 / 10))) false (some 999))
    (fun r => each r [.none, (s "crazy"), .none, .none, .none, .none, .none, .none, .none,
    .none]) = true := by decide +kernel
example : holds (field "subjects" subjects none (some (withChance (1 / 2))) false (some 999))
    (fun r => each r [.none, (s "crazy"), .none, .none, (s "warm"), (s "eat"), .none, (s "eat"),
    .none, .none]) = true := by decide +kernel
example : holds (field "subjects" subjects none (some (withChance (17 / 20))) false (some 999))
    (fun r => each r [(s "crazy"), (s "warm"), .none, (s "eat"), (s "eat"), (s "sluggish"), (s
    "happy"), (s "happy"), (s "snowstorm"), (s "crazy")]) = true := by decide +kernel
example : holds (field "subjects" subjects none (some (withChance 1)) false (some 999)) (fun r
    => each r (["crazy", "warm", "eat", "eat", "sluggish", "happy", "happy", "snowstorm",
    "crazy", "flautist"].map s)) = true := by decide +kernel
example : holds (field "subjects" subjects (some (pick (ints 1 5) (some [1218991862308979 /
    2^52, 1218991862308979 / 2^52, 6501289932314555 / 2^55, 6501289932314555 / 2^56,
    1300257986462911 / 2^55]))) (some (withChance 0)) false (some 999)) (fun r => each r [.none,
    .none, .none, .none, .none, .none, .none, .none, .none, .none]) = true := by decide +kernel
example : holds (field "subjects" subjects (some (pick [(.int 0), (.int 1)] (some [25, 75])))
    (some (withChance (1 / 2))) false (some 999)) (fun r => each r [.none, (.list [(s
    "crazy")]), .none, .none, (.list []), (.list [(s "warm")]), .none, (.list [(s "eat")]),
    .none, .none]) = true := by decide +kernel
example : holds (field "subjects" subjects (some (pick (ints 1 3) (some [828390857088487 / 2^51,
    828390857088487 / 2^52, 8836169142277195 / 2^57]))) (some (withChance (3 / 4))) false (some
    999)) (fun r => each r [.none, (.list [(s "eat"), (s "bicycle")]), .none, (.list [(s
    "eat")]), (.list [(s "yellow"), (s "flautist")]), (.list [(s "snowstorm")]), .none, (.list
    [(s "crazy")]), .none, .none]) = true := by decide +kernel
/-! `test_field_caches_previous_value`, line 323 -/
example : holds (field "test" subjects none none false (some 999)) (fun r => caches r .none
    (["crazy", "warm", "eat", "eat", "sluggish", "happy", "happy", "snowstorm", "crazy",
    "flautist"].map s)) = true := by decide +kernel
example : holds (field "test" subjects none none true (some 999)) (fun r => caches r .none
    (["crazy", "warm", "eat", "eat", "sluggish", "happy", "happy", "snowstorm", "crazy",
    "flautist"].map s)) = true := by decide +kernel
example : holds (field "test" subjects (some (pick (ints 1 5) (some [1218991862308979 / 2^52,
    1218991862308979 / 2^52, 6501289932314555 / 2^55, 6501289932314555 / 2^56, 1300257986462911
    / 2^55]))) none false (some 999)) (fun r => caches r .none [(.list [(s "eat"), (s
    "bicycle"), (s "crazy")]), (.list [(s "eat")]), (.list [(s "yellow"), (s "flautist"), (s
    "crazy"), (s "happy")]), (.list [(s "happy"), (s "happy")]), (.list [(s "eat"), (s
    "happy")]), (.list [(s "zebra")]), (.list [(s "warm"), (s "chairs"), (s "bicycle")]), (.list
    [(s "sympathy")]), (.list [(s "sympathy"), (s "eat"), (s "chairs")]), (.list [(s "crazy"),
    (s "sympathy"), (s "zebra")])]) = true := by decide +kernel
example : holds (field "test" subjects (some (pick (ints 1 5) (some [1218991862308979 / 2^52,
    1218991862308979 / 2^52, 6501289932314555 / 2^55, 6501289932314555 / 2^56, 1300257986462911
    / 2^55]))) none true (some 999)) (fun r => caches r .none [(.list [(s "eat"), (s "bicycle"),
    (s "crazy")]), (.list [(s "eat")]), (.list [(s "yellow"), (s "flautist"), (s "crazy"), (s
    "happy")]), (.list [(s "happy"), (s "happy")]), (.list [(s "eat"), (s "happy")]), (.list [(s
    "zebra")]), (.list [(s "warm"), (s "chairs"), (s "bicycle")]), (.list [(s "sympathy")]),
    (.list [(s "sympathy"), (s "eat"), (s "chairs")]), (.list [(s "crazy"), (s "sympathy"), (s
    "zebra")])]) = true := by decide +kernel
example : holds (field "test" subjects none (some (withChance (1 / 2))) false (some 999)) (fun r
    => caches r .none [.none, (s "crazy"), .none, .none, (s "warm"), (s "eat"), .none, (s
    "eat"), .none, .none]) = true := by decide +kernel
example : holds (field "test" subjects none (some (withChance (1 / 2))) true (some 999)) (fun r
    => caches r .none [.none, (s "crazy"), .none, .none, (s "warm"), (s "eat"), .none, (s
    "eat"), .none, .none]) = true := by decide +kernel
example : holds (field "test" subjects (some (pick (ints 1 3) (some [828390857088487 / 2^51,
    828390857088487 / 2^52, 8836169142277195 / 2^57]))) (some (withChance (3 / 4))) false (some
    999)) (fun r => caches r .none [.none, (.list [(s "eat"), (s "bicycle")]), .none, (.list [(s
    "eat")]), (.list [(s "yellow"), (s "flautist")]), (.list [(s "snowstorm")]), .none, (.list
    [(s "crazy")]), .none, .none]) = true := by decide +kernel
example : holds (field "test" subjects (some (pick (ints 1 3) (some [828390857088487 / 2^51,
    828390857088487 / 2^52, 8836169142277195 / 2^57]))) (some (withChance (3 / 4))) true (some
    999)) (fun r => caches r .none [.none, (.list [(s "eat"), (s "bicycle")]), .none, (.list [(s
    "eat")]), (.list [(s "yellow"), (s "flautist")]), (.list [(s "snowstorm")]), .none, (.list
    [(s "crazy")]), .none, .none]) = true := by decide +kernel
/-! `test_field_multivalued_attribute`, line 214 -/
example : holds (field "test" (static (s "test")) none none false none) (fun r => isMulti r
    false) = true := by decide +kernel
example : holds (field "test" (static (.list [(s "test")])) none none false none) (fun r =>
    isMulti r false) = true := by decide +kernel
example : holds (field "test" (static (.list [(s "test1"), (s "test2")])) none none false none)
    (fun r => isMulti r false) = true := by decide +kernel
example : holds (field "test" (static (s "test")) none none false none) (fun r => isMulti r
    false) = true := by decide +kernel
example : holds (field "test" (static (s "test")) (some (static .none)) none false none) (fun r
    => isMulti r false) = true := by decide +kernel
example : holds (field "test" (static (s "test")) (some (static (.int 1))) none false none) (fun
    r => isMulti r true) = true := by decide +kernel
example : holds (field "test" (static (s "test")) (some (pick (ints 0 0) none)) none false none)
    (fun r => isMulti r true) = true := by decide +kernel
example : holds (field "test" (static (s "test")) (some (pick (ints 1 4) none)) none false none)
    (fun r => isMulti r true) = true := by decide +kernel
/-! `test_sourcefieldgroup_singlevalued`, line 86 -/
example : holds (copy [(field "test" (static (s "Test Val")) none none false none)] true none)
    (fun r => isSingle r true) = true := by decide +kernel
example : holds (copy [(field "test" (static (s "Test Val")) (some (static (.int 0))) none false
    none)] true none) (fun r => isSingle r false) = true := by decide +kernel
example : holds (copy [(field "test" (static (s "Test Val")) (some (static (.int 1))) none false
    none)] true none) (fun r => isSingle r false) = true := by decide +kernel
example : holds (copy [(field "test" (static (s "Test Val")) (some (static (.int 2))) none false
    none)] true none) (fun r => isSingle r false) = true := by decide +kernel
example : holds (copy [(field "test" (static (s "Test Val")) none none false none)] false none)
    (fun r => isSingle r false) = true := by decide +kernel
example : holds (copy [(field "test" (static (s "Test Val")) (some (static (.int 0))) none false
    none)] false none) (fun r => isSingle r false) = true := by decide +kernel
example : holds (copy [(field "test" (static (s "Test Val")) (some (static (.int 1))) none false
    none)] false none) (fun r => isSingle r false) = true := by decide +kernel
example : holds (copy [(field "test" (static (s "Test Val")) (some (static (.int 2))) none false
    none)] false none) (fun r => isSingle r false) = true := by decide +kernel
example : holds (copy [(field "test1" (static (s "one")) none none false none), (field "test2"
    (static (s "two")) none none false none)] false none) (fun r => isSingle r false) = true :=
    by decide +kernel
example : holds (copy [(field "test1" (static (s "one")) (some (static (.int 0))) none false
    none), (field "test2" (static (s "two")) (some (static (.int 0))) none false none)] false
    none) (fun r => isSingle r false) = true := by decide +kernel
example : holds (copy [(field "test1" (static (s "one")) (some (static (.int 1))) none false
    none), (field "test2" (static (s "two")) (some (static (.int 1))) none false none)] false
    none) (fun r => isSingle r false) = true := by decide +kernel
example : holds (copy [(field "test1" (static (s "one")) (some (static (.int 2))) none false
    none), (field "test2" (static (s "two")) (some (static (.int 2))) none false none)] false
    none) (fun r => isSingle r false) = true := by decide +kernel
/-! `test_copyfields_singlevalued`, line 191 -/
example : holds (copy [(field "test" (static (s "Test Val")) none none false none)] true none)
    (fun r => isSingle r true) = true := by decide +kernel
example : holds (copy [(field "test" (static (s "Test Val")) (some (static (.int 0))) none false
    none)] true none) (fun r => isSingle r false) = true := by decide +kernel
example : holds (copy [(field "test" (static (s "Test Val")) (some (static (.int 1))) none false
    none)] true none) (fun r => isSingle r false) = true := by decide +kernel
example : holds (copy [(field "test" (static (s "Test Val")) (some (static (.int 2))) none false
    none)] true none) (fun r => isSingle r false) = true := by decide +kernel
example : holds (copy [(field "test" (static (s "Test Val")) none none false none)] false none)
    (fun r => isSingle r false) = true := by decide +kernel
example : holds (copy [(field "test" (static (s "Test Val")) (some (static (.int 0))) none false
    none)] false none) (fun r => isSingle r false) = true := by decide +kernel
example : holds (copy [(field "test" (static (s "Test Val")) (some (static (.int 1))) none false
    none)] false none) (fun r => isSingle r false) = true := by decide +kernel
example : holds (copy [(field "test" (static (s "Test Val")) (some (static (.int 2))) none false
    none)] false none) (fun r => isSingle r false) = true := by decide +kernel
example : holds (copy [(field "test1" (static (s "one")) none none false none), (field "test2"
    (static (s "two")) none none false none)] false none) (fun r => isSingle r false) = true :=
    by decide +kernel
example : holds (copy [(field "test1" (static (s "one")) (some (static (.int 0))) none false
    none), (field "test2" (static (s "two")) (some (static (.int 0))) none false none)] false
    none) (fun r => isSingle r false) = true := by decide +kernel
example : holds (copy [(field "test1" (static (s "one")) (some (static (.int 1))) none false
    none), (field "test2" (static (s "two")) (some (static (.int 1))) none false none)] false
    none) (fun r => isSingle r false) = true := by decide +kernel
example : holds (copy [(field "test1" (static (s "one")) (some (static (.int 2))) none false
    none), (field "test2" (static (s "two")) (some (static (.int 2))) none false none)] false
    none) (fun r => isSingle r false) = true := by decide +kernel
/-! `test_copyfields_emit`, line 287 -/
example : holds (copy [(field "test" (static (s "Test Val")) none none false none)] true none)
    (fun r => copies r (s "Test Val")) = true := by decide +kernel
example : holds (copy [(field "test" (static (s "Test Val")) none none false none)] true (some
    " ")) (fun r => copies r (s "Test Val")) = true := by decide +kernel
example : holds (copy [(field "test" (static (s "one")) (some (static (.int 3))) none false
    none)] true none) (fun r => copies r (.list [(s "one"), (s "one"), (s "one")])) = true := by
    decide +kernel
example : holds (copy [(field "test" (static (s "one")) (some (static (.int 3))) none false
    none)] true (some "; ")) (fun r => copies r (s "one; one; one")) = true := by decide +kernel
example : holds (copy [(field "test" (static (s "one")) (some (static (.int 3))) (some
    (withChance 0)) false none)] true none) (fun r => copies r .none) = true := by
    decide +kernel
example : holds (copy [(field "test" (static (s "one")) (some (static (.int 0))) none false
    none)] true none) (fun r => copies r .none) = true := by decide +kernel
example : holds (copy [(field "test" (static (s "Test Val")) none none false none)] false none)
    (fun r => copies r (.list [(s "Test Val")])) = true := by decide +kernel
example : holds (copy [(field "test1" (static (s "one")) none none false none), (field "test2"
    (static (s "two")) none none false none), (field "test3" (static (s "three")) none none
    false none)] false none) (fun r => copies r (.list [(s "one"), (s "two"), (s "three")])) =
    true := by decide +kernel
example : holds (copy [(field "test1" (static (s "one")) none none false none), (field "test2"
    (static (s "two")) none none false none), (field "test3" (static (s "three")) none none
    false none)] false (some " ")) (fun r => copies r (s "one two three")) = true := by
    decide +kernel
example : holds (copy [(field "test1" (static (s "one")) (some (static (.int 3))) none false
    none), (field "test2" (static (s "two")) none none false none), (field "test3" (static (s
    "three")) (some (static (.int 1))) none false none)] false none) (fun r => copies r (.list
    [(s "one"), (s "one"), (s "one"), (s "two"), (s "three")])) = true := by decide +kernel
example : holds (copy [(field "test1" (static (s "one")) (some (static (.int 3))) none false
    none), (field "test2" (static (s "two")) none none false none), (field "test3" (static (s
    "three")) (some (static (.int 1))) none false none)] false (some "-")) (fun r => copies r (s
    "one-one-one-two-three")) = true := by decide +kernel
example : holds (copy [(field "test1" (static (s "one")) (some (static (.int 3))) none false
    none), (field "test2" (static (s "two")) none (some (withChance 0)) false none), (field
    "test3" (static (s "three")) none none false none)] false none) (fun r => copies r (.list
    [(s "one"), (s "one"), (s "one"), (s "three")])) = true := by decide +kernel
example : holds (copy [(field "test1" (static (s "one")) (some (static (.int 3))) (some
    (withChance 0)) false none), (field "test2" (static (s "two")) none (some (withChance 0))
    false none), (field "test3" (static (s "three")) none none false none)] false none) (fun r
    => copies r (.list [(s "three")])) = true := by decide +kernel
example : holds (copy [(field "test1" (static (s "one")) (some (static (.int 3))) (some
    (withChance 0)) false none), (field "test2" (static (s "two")) none (some (withChance 0))
    false none), (field "test3" (static (s "three")) (some (static (.int 2))) none false none)]
    false none) (fun r => copies r (.list [(s "three"), (s "three")])) = true := by
    decide +kernel
example : holds (copy [(field "test1" (static (s "one")) (some (static (.int 3))) (some
    (withChance 0)) false none), (field "test2" (static (s "two")) none (some (withChance 0))
    false none), (field "test3" (static (s "three")) (some (static (.int 2))) (some (withChance
    0)) false none)] false none) (fun r => copies r .none) = true := by decide +kernel
example : holds (copy [(field "test1" (static (s "one")) (some (static (.int 0))) none false
    none), (field "test2" (static (s "two")) none (some (withChance 0)) false none), (field
    "test3" (static (s "three")) (some (static (.int 2))) (some (withChance 0)) false none)]
    false none) (fun r => copies r .none) = true := by decide +kernel
/-! `test_basedonfields_emit`, line 346 -/
example : based [(field "test1" (static (.int 0)) none none false none)] true strFunction none
    (s "0") = true := by decide +kernel
example : based [(field "test1" (static (.int 0)) (some (static (.int 1))) none false none)]
    true singleFieldMulti none (.list [(s "0")]) = true := by decide +kernel
example : based [(field "test1" (static (.int 0)) (some (static (.int 1))) none false none)]
    true singleFieldMultiCollapse none (s "0") = true := by decide +kernel
example : based [(field "test1" (static (.int 0)) (some (static (.int 3))) none false none)]
    true singleFieldMulti none (.list [(s "0"), (s "0"), (s "0")]) = true := by decide +kernel
example : based [(field "test1" (static (.int 0)) (some (static (.int 3))) none false none)]
    true singleFieldMultiCollapse none (s "0 0 0") = true := by decide +kernel
example : based [(field "test1" (static (.int 0)) (some (static (.int 3))) (some (withChance 0))
    false none)] true singleFieldMultiCollapse none .none = true := by decide +kernel
example : based [(field "test1" (pick (ints 1 5) none) none none false none)] true
    singleFieldRandom (some 999) (.int 1) = true := by decide +kernel
example : based [(field "test1" (static (.int 1)) none none false none), (field "test2" (static
    (.int 2)) none none false none), (field "test3" (static (.int 3)) none none false none)]
    false multiFieldEachSingle none (.list [(s "1"), (s "2"), (s "3")]) = true := by
    decide +kernel
example : based [(field "test1" (static (.int 1)) none none false none), (field "test2" (static
    (.int 2)) none none false none), (field "test3" (static (.int 3)) none none false none)]
    false multiFieldEachSingleCollapse none (s "1 2 3") = true := by decide +kernel
example : based [(field "test1" (static (.int 1)) (some (static (.int 1))) none false none),
    (field "test2" (static (.int 2)) (some (static (.int 2))) none false none), (field "test3"
    (static (.int 3)) (some (static (.int 2))) none false none)] false multiFieldEachMulti none
    (.list [(s "1"), (s "2"), (s "2"), (s "3"), (s "3")]) = true := by decide +kernel
example : based [(field "test1" (static (.int 1)) (some (static (.int 1))) none false none),
    (field "test2" (static (.int 2)) (some (static (.int 2))) none false none), (field "test3"
    (static (.int 3)) (some (static (.int 2))) none false none)] false
    multiFieldEachMultiCollapse none (s "1 2 2 3 3") = true := by decide +kernel
example : based [(field "test1" (static (.int 1)) (some (static (.int 1))) (some (withChance 0))
    false none), (field "test2" (static (.int 2)) (some (static (.int 2))) (some (withChance 0))
    false none), (field "test3" (static (.int 3)) (some (static (.int 2))) none false none)]
    false multiFieldEachMulti none (.list [(s "3"), (s "3")]) = true := by decide +kernel
example : based [(field "test1" (static (.int 1)) (some (static (.int 1))) (some (withChance 0))
    false none), (field "test2" (static (.int 2)) (some (static (.int 2))) (some (withChance 0))
    false none), (field "test3" (static (.int 3)) (some (static (.int 2))) (some (withChance 0))
    false none)] false multiFieldEachMulti none .none = true := by decide +kernel
example : based [(field "test1" (pick (ints 1 5) none) (some (pick (ints 1 3) none)) none false
    none), (field "test2" (static (s "-")) (some (pick (ints 1 3) none)) none false none),
    (field "test3" (pick (chars "ABCDEFG") none) (some (static (.int 2))) none false none)]
    false multiFieldRandom (some 999) (s "4 1! 5 - -! -! F A!") = true := by decide +kernel
example : based [(field "t1" (static (s "1")) (some (static (.int 2))) none false none), (field
    "t2" (static (s "2")) none none false none), (field "t3" (static (s "3")) none none false
    none)] false joinThree none (s "1 1:2:3") = true := by decide +kernel
/-! `test_basedonfields_emit_bad_action_raises_error`, line 389 -/
example : badAction [(field "test1" (static (s "test")) none none false none)] false [] = true
    := by decide +kernel
example : badAction [(field "test1" (static (s "test")) none none false none)] false [⟨"rng",
    .posOrKw, false⟩] = true := by decide +kernel
example : badAction [(field "test1" (static (s "test")) none none false none)] false [⟨"rng",
    .posOrKw, false⟩, ⟨"test1", .posOrKw, false⟩] = true := by decide +kernel
example : badAction [(field "test1" (static (s "test")) none none false none)] false [⟨"v1",
    .posOrKw, false⟩, ⟨"v2", .posOrKw, false⟩] = true := by decide +kernel
example : badAction [(field "test1" (static (s "test")) none none false none), (field "test2"
    (static (s "test")) none none false none)] false [] = true := by decide +kernel
example : badAction [(field "test1" (static (s "test")) none none false none), (field "test2"
    (static (s "test")) none none false none)] false [⟨"rng", .posOrKw, false⟩] = true := by
    decide +kernel
example : badAction [(field "test1" (static (s "test")) none none false none), (field "test2"
    (static (s "test")) none none false none)] false [⟨"v1", .posOrKw, false⟩, ⟨"v2", .posOrKw,
    false⟩] = true := by decide +kernel
example : badAction [(field "test1" (static (s "test")) none none false none), (field "test2"
    (static (s "test")) none none false none)] false [⟨"test1", .posOrKw, false⟩, ⟨"rng",
    .posOrKw, false⟩] = true := by decide +kernel
example : badAction [(field "test1" (static (s "test")) none none false none), (field "test2"
    (static (s "test")) none none false none)] false [⟨"test1", .posOrKw, false⟩, ⟨"test2",
    .posOrKw, false⟩, ⟨"test3", .posOrKw, false⟩] = true := by decide +kernel
/-! `test_wrapone_emit_bad_wrapper_raises_error`, line 166 -/
example : badWrapOne [] = true := by decide +kernel
example : badWrapOne [⟨"rng", .posOrKw, false⟩] = true := by decide +kernel
example : badWrapOne [⟨"rng", .posOrKw, false⟩, ⟨"val", .posOrKw, false⟩] = true := by
    decide +kernel
example : badWrapOne [⟨"val1", .posOrKw, false⟩, ⟨"val2", .posOrKw, false⟩] = true := by
    decide +kernel
example : badWrapOne [⟨"val1", .posOrKw, false⟩, ⟨"val2", .posOrKw, false⟩, ⟨"rng", .posOrKw,
    false⟩] = true := by decide +kernel
example : badWrapOne [⟨"val1", .posOrKw, false⟩, ⟨"rng", .posOrKw, false⟩, ⟨"val2", .posOrKw,
    false⟩] = true := by decide +kernel
/-! `test_wrapmany_emit_bad_wrapper_raises_error`, line 263 -/
example : badWrapMany [] = true := by decide +kernel
example : badWrapMany [⟨"rng", .posOrKw, false⟩] = true := by decide +kernel
example : badWrapMany [⟨"val1", .posOrKw, false⟩, ⟨"val2", .posOrKw, false⟩] = true := by
    decide +kernel
example : badWrapMany [⟨"val1", .posOrKw, false⟩, ⟨"val2", .posOrKw, false⟩, ⟨"rng", .posOrKw,
    false⟩] = true := by decide +kernel
example : badWrapMany [⟨"a", .posOrKw, false⟩] = true := by decide +kernel
example : badWrapMany [⟨"a", .posOrKw, false⟩, ⟨"c", .posOrKw, false⟩] = true := by
    decide +kernel
example : badWrapMany [⟨"a", .posOrKw, false⟩, ⟨"rng", .posOrKw, false⟩] = true := by
    decide +kernel
example : badWrapMany [⟨"a", .posOrKw, false⟩, ⟨"b", .posOrKw, false⟩, ⟨"c", .posOrKw, false⟩] =
    true := by decide +kernel
example : badWrapMany [⟨"a", .posOrKw, false⟩, ⟨"b", .posOrKw, false⟩, ⟨"c", .posOrKw, false⟩,
    ⟨"rng", .posOrKw, false⟩] = true := by decide +kernel
example : badWrapMany [⟨"a", .posOrKw, false⟩, ⟨"c", .posOrKw, false⟩, ⟨"b", .posOrKw, false⟩,
    ⟨"rng", .posOrKw, false⟩] = true := by decide +kernel

end Conform
end Fauxdoc
