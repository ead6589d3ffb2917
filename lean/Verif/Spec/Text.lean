import Verif.Py.Val
/-
Specification vocabulary for words and texts.
-/
namespace Fauxdoc

/-- The values are the given numbers. -/
def AreCounts (vs : List Val) (ns : List Nat) : Prop :=
  vs.map Val.asInt = ns.map fun (n : Nat) => some (n : Int)

/-- The text `t` is made of the words `ws` and the separators `ss`, every one used once and in
order, with one separator between any two consecutive words. -/
inductive TextOf : List (List Char) → List (List Char) → List Char → Prop
  | one (w : List Char) : TextOf [w] [] w
  | more (w s : List Char) {ws ss : List (List Char)} {t : List Char} (h : TextOf ws ss t) :
      TextOf (w :: ws) (s :: ss) (w ++ s ++ t)

/-- The texts `ts` use the words `ws` and the separators `ss`, each exactly once and in order,
text `i` having `ns[i]` words. -/
inductive TextsOf : List Nat → List (List Char) → List (List Char) → List (List Char) → Prop
  | nil : TextsOf [] [] [] []
  | cons {ns : List Nat} {ws ss ws' ss' ts : List (List Char)} {t : List Char}
      (h : TextOf ws ss t) (hs : TextsOf ns ws' ss' ts) :
      TextsOf (ws.length :: ns) (ws ++ ws') (ss ++ ss') (t :: ts)

/-- The words `ts` use the characters `cs`, each exactly once and in order, word `i` having `ns[i]`
of them. -/
inductive WordsOf : List Nat → List (List Char) → List (List Char) → Prop
  | nil : WordsOf [] [] []
  | cons {ns : List Nat} {cs cs' ts : List (List Char)} (hs : WordsOf ns cs' ts) :
      WordsOf (cs.length :: ns) (cs ++ cs') (cs.flatten :: ts)

end Fauxdoc
