import Verif.Conform.World
/-
The tests of `/repo/tests/test_emitters_text.py`, run on the model. Made by `tools/conform_world.py`
from the text of the tests.
-/
namespace Fauxdoc
namespace Conform
open World

/-- The fixture `auto_word_emitter`, line 12. -/
def autoWord : Test Ref := word (pick (ints 2 8) none) (pick (chars "abcde") none) none

/-- The fixture `make_wordlist_emitter`, line 18. -/
def wordList (distinct : Bool) : Test Ref :=
  newChoice .other (["red", "cat", "sappy", "blooming", "flower", "isolated", "runway",
    "refrigerator", "truck", "of", "the", "a", "baseless", "bird", "on", "clapping"].map s)
    (some [5, 5, 5, 5, 5, 5, 5, 5, 5, 10, 10, 10, 5, 5, 10, 5]) true distinct none none

/-- The separators of `test_text_emit_words_list`. -/
def seps : Test Ref := pick ([" ", "-", ", ", "; ", ": "].map s) (some [80, 5, 10, 3, 2])

/-! `test_makealphabet`, line 37 -/
example : is (makeAlphabet (some [(65, 69), (71, 71)])) [65, 66, 67, 68, 69, 71] = true := by
    decide +kernel
example : is (makeAlphabet (some [(97, 103), (65, 67)])) [97, 98, 99, 100, 101, 102, 103, 65,
    66, 67] = true := by decide +kernel
/-! `test_word_emit`, line 70 -/
example : holds (word (pick (ints 0 0) none) (pick (chars "abcde") none) (some 999)) (fun r =>
    many r (["", "", "", "", "", "", "", "", "", ""].map s)) = true := by decide +kernel
example : holds (word (pick (ints 1 1) none) (pick (chars "abcde") none) (some 999)) (fun r =>
    many r (["d", "a", "e", "c", "c", "a", "d", "b", "d", "e"].map s)) = true := by
    decide +kernel
example : holds (word (pick (ints 5 5) none) (pick (chars "abcde") none) (some 999)) (fun r =>
    many r (["daecc", "adbde", "aeabc", "dbeeb", "daabe", "cadae", "cecdd", "adcdb", "aebdb",
    "cadca"].map s)) = true := by decide +kernel
example : holds (word (pick (ints 5 5) none) (pick (chars "abcde") none) (some 999)) (fun r =>
    each r (["daecc", "adbde", "aeabc", "dbeeb", "daabe", "cadae", "cecdd", "adcdb", "aebdb",
    "cadca"].map s)) = true := by decide +kernel
example : holds (word (pick (ints 5 5) none) (pick (chars "a") none) (some 999)) (fun r => many
    r (["aaaaa", "aaaaa", "aaaaa", "aaaaa", "aaaaa", "aaaaa", "aaaaa", "aaaaa", "aaaaa",
    "aaaaa"].map s)) = true := by decide +kernel
example : holds (word (pick (ints 1 5) none) (pick (chars "abcde") none) (some 999)) (fun r =>
    many r (["daec", "c", "adbde", "aea", "bcd", "b", "eebd", "aa", "beca", "daece"].map s)) =
    true := by decide +kernel
example : holds (word (pick (ints 1 5) (some [15, 70, 5, 5, 5])) (pick (chars "abcde") none)
    (some 999)) (fun r => many r (["da", "e", "cca", "db", "de", "a", "ea", "bc", "db",
    "ee"].map s)) = true := by decide +kernel
example : holds (word (pick (ints 1 5) (some [15, 70, 5, 5, 5])) (pick (chars "abcde") none)
    (some 999)) (fun r => each r (["da", "e", "cca", "db", "de", "a", "de", "ae", "ad",
    "bd"].map s)) = true := by decide +kernel
example : holds (word (pick (ints 1 5) (some [15, 70, 5, 5, 5])) (pick (chars "abcde") (some
    [20, 5, 15, 40, 20])) (some 999)) (fun r => many r (["da", "e", "dda", "dc", "de", "a",
    "ea", "cd", "dc", "ee"].map s)) = true := by decide +kernel
example : holds (word (pick (ints 1 5) none) (pick (chars "abcde") (some [20, 5, 15, 40, 20]))
    (some 999)) (fun r => many r (["daed", "d", "adcde", "aea", "cdd", "c", "eebd", "aa",
    "beda", "daede"].map s)) = true := by decide +kernel
/-! `test_word_unique_properties`, line 87 -/
example : hasUnique (word (pick [(.int 1)] none) (pick (chars "abcde") none) none) 5 = true :=
    by decide +kernel
example : hasUnique (word (pick [(.int 2)] none) (pick (chars "abcde") none) none) 25 = true :=
    by decide +kernel
example : hasUnique (word (pick [(.int 3)] none) (pick (chars "abcde") none) none) 125 = true :=
    by decide +kernel
example : hasUnique (word (pick [(.int 4)] none) (pick (chars "abcde") none) none) 625 = true :=
    by decide +kernel
example : hasUnique (word (pick [(.int 1), (.int 2), (.int 3), (.int 4)] none) (pick (chars
    "abcde") none) none) 780 = true := by decide +kernel
example : hasUnique (word (pick [(.int 3), (.int 1)] none) (pick (chars "abcde") none) none) 130
    = true := by decide +kernel
/-! `test_text_emit_generated_words`, line 124 -/
example : holds (text (pick (ints 1 3) none) autoWord none (some 999)) (fun r => many r
    (["daeccad bd eaeabcdb", "eebdaa", "becad ae cecddad", "cdba ebdbcad", "caecabd bc",
    "bbceeeac"].map s)) = true := by decide +kernel
example : holds (text (pick (ints 1 3) none) autoWord none (some 999)) (fun r => each r
    (["daeccad bd eaeabcdb", "eebdaa", "becad aecec ddadcdba", "ebdbca dcaeca bdbcbb",
    "ceeeacd ceeabb dadeacd", "edb aeacaecc"].map s)) = true := by decide +kernel
example : holds (text (pick (ints 3 6) none) autoWord none (some 999)) (fun r => many r
    (["daeccad bd eaeabcdb eebdaa becad ae", "cecddad cdba ebdbcad",
    "caecabd bc bbceeeac dce eab bdade", "acdedb aea caeccaed abceeced bac", "ebcbdb dc ba ded",
    "cdbbdbab bdbed dad"].map s)) = true := by decide +kernel
example : holds (text (pick (ints 3 6) none) autoWord (some (pick ([" ", "-", ", ", "; "].map s)
    (some [40, 30, 20, 10]))) (some 999)) (fun r => many r
    (["daeccad, bd eaeabcdb, eebdaa-becad-ae", "cecddad cdba, ebdbcad",
    "caecabd bc, bbceeeac, dce eab; bdade", "acdedb aea caeccaed-abceeced, bac",
    "ebcbdb dc, ba; ded", "cdbbdbab bdbed-dad"].map s)) = true := by decide +kernel
example : holds (text (pick (ints 3 6) none) autoWord (some (pick ([" ", "-", ", ", "; "].map s)
    (some [40, 30, 20, 10]))) (some 999)) (fun r => each r (["daeccad, bd eaeabcdb",
    "eebdaa, becad-ae-cecddad cdba, ebdbcad", "caecabd bc, bbceeeac, dce eab; bdade",
    "acdedb aea caeccaed-abceeced", "bac, ebcbdb dc, ba; ded", "cdbbdbab bdbed-dad"].map s)) =
    true := by decide +kernel
example : holds (text (pick (ints 1 3) (some [60, 25, 15])) autoWord none (some 999)) (fun r =>
    many r (["daeccad bd", "eaeabcdb", "eebdaa becad ae", "cecddad", "cdba", "ebdbcad"].map s))
    = true := by decide +kernel
/-! `test_text_emit_words_list`, line 170 -/
example : holds (text (pick (ints 1 3) none) (wordList false) (some seps) (some 999)) (fun r =>
    many r (["baseless cat on", "the", "of, sappy baseless", "runway baseless", "bird cat",
    "clapping", "blooming isolated the", "a", "isolated on-clapping", "flower the: cat"].map s))
    = true := by decide +kernel
example : holds (text (pick (ints 1 3) none) (wordList false) (some seps) (some 999)) (fun r =>
    each r (["baseless cat on", "the", "of, sappy baseless", "runway baseless bird",
    "cat clapping blooming", "isolated the", "a-isolated", "on", "clapping flower: the",
    "cat red"].map s)) = true := by decide +kernel
example : holds (text (pick (ints 3 6) none) (wordList false) (some seps) (some 999)) (fun r =>
    many r (["baseless cat on, the of sappy", "baseless runway baseless",
    "bird cat clapping-blooming isolated: the", "a isolated on clapping flower",
    "the cat, red: flower", "clapping of blooming", "a blooming on the; on of", "a a sappy a",
    "of, a flower, sappy bird flower", "baseless isolated of red baseless of"].map s)) = true :=
    by decide +kernel
example : holds (text (pick (ints 3 10) none) (wordList true) (some seps) (some 999)) (fun r =>
    many r (["a of sappy, runway truck red on clapping blooming", "flower refrigerator-the",
    "bird baseless: isolated cat a of sappy runway, truck",
    "red: on clapping blooming flower refrigerator the", "bird; baseless isolated cat a of",
    "sappy, runway truck, red",
    "on clapping blooming flower refrigerator the bird baseless isolated",
    "cat a-of sappy runway", "truck red on clapping blooming flower refrigerator, the bird",
    "baseless isolated cat baseless cat on the of sappy"].map s)) = true := by decide +kernel
/-! `test_text_unique_properties`, line 211 -/
example : hasUnique (text (pick [(.int 1)] none) (word (static (.int 1)) (pick (chars "abcde")
    none) none) none none) 5 = true := by decide +kernel
example : hasUnique (text (pick [(.int 1)] none) (word (static (.int 1)) (pick (chars "abcde")
    none) none) (some (pick ([" "].map s) none)) none) 5 = true := by decide +kernel
example : hasUnique (text (pick [(.int 1)] none) (word (static (.int 2)) (pick (chars "abcde")
    none) none) none none) 25 = true := by decide +kernel
example : hasUnique (text (pick [(.int 1)] none) (word (static (.int 2)) (pick (chars "abcde")
    none) none) (some (pick ([" "].map s) none)) none) 25 = true := by decide +kernel
example : hasUnique (text (pick [(.int 1)] none) (word (pick [(.int 1), (.int 2), (.int 3)]
    none) (pick (chars "abcde") none) none) (some (pick ([" "].map s) none)) none) 155 = true :=
    by decide +kernel
example : hasUnique (text (pick [(.int 1)] none) (word (pick [(.int 1), (.int 3)] none) (pick
    (chars "abcde") none) none) (some (pick ([" "].map s) none)) none) 130 = true := by
    decide +kernel
example : hasUnique (text (pick [(.int 1)] none) (word (static (.int 2)) (pick (chars "abcde")
    none) none) (some (pick ([" ", "-", "; "].map s) none)) none) 25 = true := by decide +kernel
example : hasUnique (text (pick [(.int 2)] none) (word (static (.int 1)) (pick (chars "abcde")
    none) none) (some (pick ([" ", "-"].map s) none)) none) 50 = true := by decide +kernel
example : hasUnique (text (pick [(.int 2)] none) (word (static (.int 1)) (pick (chars "abcde")
    none) none) (some (pick ([" ", "-", "; "].map s) none)) none) 75 = true := by decide +kernel
example : hasUnique (text (pick [(.int 3)] none) (word (static (.int 1)) (pick (chars "abcde")
    none) none) (some (pick ([" ", "-", "; "].map s) none)) none) 1125 = true := by
    decide +kernel
example : hasUnique (text (pick [(.int 2), (.int 3)] none) (word (static (.int 1)) (pick (chars
    "abcde") none) none) (some (pick ([" ", "-", "; "].map s) none)) none) 1200 = true := by
    decide +kernel
example : hasUnique (text (pick [(.int 1), (.int 2), (.int 3)] none) (word (static (.int 1))
    (pick (chars "abcde") none) none) (some (pick ([" ", "-", "; "].map s) none)) none) 1205 =
    true := by decide +kernel
example : hasUnique (text (pick [(.int 1), (.int 2), (.int 3)] none) (word (pick [(.int 1),
    (.int 2)] none) (pick (chars "abcde") none) none) (some (pick ([" ", "-", "; "].map s)
    none)) none) 245730 = true := by decide +kernel
example : hasUnique (text (pick [(.int 1)] none) (pick (["0", "1", "2", "3", "4", "5", "6", "7",
    "8", "9", "10", "11", "12", "13", "14", "15", "16", "17", "18", "19", "20", "21", "22",
    "23", "24", "25", "26", "27", "28", "29", "30", "31", "32", "33", "34", "35", "36", "37",
    "38", "39", "40", "41", "42", "43", "44", "45", "46", "47", "48", "49", "50", "51", "52",
    "53", "54", "55", "56", "57", "58", "59", "60", "61", "62", "63", "64", "65", "66", "67",
    "68", "69", "70", "71", "72", "73", "74", "75", "76", "77", "78", "79", "80", "81", "82",
    "83", "84", "85", "86", "87", "88", "89", "90", "91", "92", "93", "94", "95", "96", "97",
    "98", "99"].map s) none) (some (pick ([" "].map s) none)) none) 100 = true := by
    decide +kernel
example : hasUnique (text (pick [(.int 2)] none) (pick (["0", "1", "2", "3", "4", "5", "6", "7",
    "8", "9", "10", "11", "12", "13", "14", "15", "16", "17", "18", "19", "20", "21", "22",
    "23", "24", "25", "26", "27", "28", "29", "30", "31", "32", "33", "34", "35", "36", "37",
    "38", "39", "40", "41", "42", "43", "44", "45", "46", "47", "48", "49", "50", "51", "52",
    "53", "54", "55", "56", "57", "58", "59", "60", "61", "62", "63", "64", "65", "66", "67",
    "68", "69", "70", "71", "72", "73", "74", "75", "76", "77", "78", "79", "80", "81", "82",
    "83", "84", "85", "86", "87", "88", "89", "90", "91", "92", "93", "94", "95", "96", "97",
    "98", "99"].map s) none) (some (pick ([" "].map s) none)) none) 10000 = true := by
    decide +kernel
example : hasUnique (text (pick [(.int 3)] none) (pick (["0", "1", "2", "3", "4", "5", "6", "7",
    "8", "9", "10", "11", "12", "13", "14", "15", "16", "17", "18", "19", "20", "21", "22",
    "23", "24", "25", "26", "27", "28", "29", "30", "31", "32", "33", "34", "35", "36", "37",
    "38", "39", "40", "41", "42", "43", "44", "45", "46", "47", "48", "49", "50", "51", "52",
    "53", "54", "55", "56", "57", "58", "59", "60", "61", "62", "63", "64", "65", "66", "67",
    "68", "69", "70", "71", "72", "73", "74", "75", "76", "77", "78", "79", "80", "81", "82",
    "83", "84", "85", "86", "87", "88", "89", "90", "91", "92", "93", "94", "95", "96", "97",
    "98", "99"].map s) none) (some (pick ([" "].map s) none)) none) 1000000 = true := by
    decide +kernel
example : hasUnique (text (pick [(.int 3)] none) (pick (["0", "1", "2", "3", "4", "5", "6", "7",
    "8", "9", "10", "11", "12", "13", "14", "15", "16", "17", "18", "19", "20", "21", "22",
    "23", "24", "25", "26", "27", "28", "29", "30", "31", "32", "33", "34", "35", "36", "37",
    "38", "39", "40", "41", "42", "43", "44", "45", "46", "47", "48", "49", "50", "51", "52",
    "53", "54", "55", "56", "57", "58", "59", "60", "61", "62", "63", "64", "65", "66", "67",
    "68", "69", "70", "71", "72", "73", "74", "75", "76", "77", "78", "79", "80", "81", "82",
    "83", "84", "85", "86", "87", "88", "89", "90", "91", "92", "93", "94", "95", "96", "97",
    "98", "99"].map s) none) (some (pick ([" ", "-", "; "].map s) none)) none) 9000000 = true :=
    by decide +kernel
example : hasUnique (text (pick [(.int 1), (.int 2), (.int 3)] none) (pick (["0", "1", "2", "3",
    "4", "5", "6", "7", "8", "9", "10", "11", "12", "13", "14", "15", "16", "17", "18", "19",
    "20", "21", "22", "23", "24", "25", "26", "27", "28", "29", "30", "31", "32", "33", "34",
    "35", "36", "37", "38", "39", "40", "41", "42", "43", "44", "45", "46", "47", "48", "49",
    "50", "51", "52", "53", "54", "55", "56", "57", "58", "59", "60", "61", "62", "63", "64",
    "65", "66", "67", "68", "69", "70", "71", "72", "73", "74", "75", "76", "77", "78", "79",
    "80", "81", "82", "83", "84", "85", "86", "87", "88", "89", "90", "91", "92", "93", "94",
    "95", "96", "97", "98", "99"].map s) none) (some (pick ([" ", "-", "; "].map s) none)) none)
    9030100 = true := by decide +kernel

end Conform
end Fauxdoc
