import Verif.Model.Abstract
import Verif.Conform.Basic
/-
Generated by tools/conform_abstract.py: abstract methods of classes in CPython.
-/
namespace Fauxdoc.Conform
open Fauxdoc.Cls

/-- Which of the methods `f`, `g` are abstract in each class, for a hierarchy over `ABC`. -/
def abstractIn (classes : List (Name × List Name × List (String × Bool))) : Except Err (List (List Bool)) :=
  let stmts := ("ABC", ["object"]) :: classes.map fun c => (c.1, c.2.1)
  match defineAll builtins stmts with
  | .error e => .error e
  | .ok env =>
    let ms : Methods := fun c => ((classes.find? (·.1 = c)).map (·.2.2)).getD []
    let t := collectAll ms env [] stmts
    .ok (classes.map fun c => ["f", "g"].map fun n => decide (n ∈ t.of c.1))

example : abstractIn [("A", ["ABC"], [("f", false)]), ("B", ["A"], []), ("C", ["A"], [("g", true)]), ("D", ["B", "A"], [("f", true)]), ("E", ["D"], [("f", true)]), ("F", ["E"], [("f", false), ("g", true)]), ("G", ["E"], [("f", false), ("g", false)])] =
    .ok [[false, false], [false, false], [false, true], [true, false], [true, false], [false, true], [false, false]] := by decide +kernel

example : abstractIn [("A", ["ABC"], [("f", false)]), ("B", ["A"], [("f", false)]), ("C", ["A"], [("f", false), ("g", false)]), ("D", ["C", "A"], [("f", true)])] =
    .ok [[false, false], [false, false], [false, false], [true, false]] := by decide +kernel

example : abstractIn [("A", ["object"], [("f", false), ("g", false)]), ("B", ["A"], [("f", false)]), ("C", ["B"], [("f", true), ("g", true)]), ("D", ["B", "ABC"], [("f", true), ("g", true)])] =
    .ok [[false, false], [false, false], [false, false], [true, true]] := by decide +kernel

example : abstractIn [("A", ["ABC"], []), ("B", ["A"], [("f", true)]), ("C", ["B"], [("f", true)])] =
    .ok [[false, false], [true, false], [true, false]] := by decide +kernel

example : abstractIn [("A", ["ABC"], [("g", false)]), ("B", ["object"], [("f", true), ("g", true)]), ("C", ["A", "B"], [("f", true), ("g", true)])] =
    .ok [[false, false], [false, false], [true, true]] := by decide +kernel

example : abstractIn [("A", ["ABC"], [("f", false), ("g", false)]), ("B", ["A"], [("f", false)]), ("C", ["B", "A"], [("f", true)])] =
    .ok [[false, false], [false, false], [true, false]] := by decide +kernel

example : abstractIn [("A", ["ABC"], [("g", false)]), ("B", ["ABC"], [("f", false), ("g", false)]), ("C", ["B"], [("g", true)]), ("D", ["A", "C"], [("g", false)]), ("E", ["D", "B"], [("f", true)])] =
    .ok [[false, false], [false, false], [false, true], [false, false], [true, false]] := by decide +kernel

example : abstractIn [("A", ["ABC"], [("f", true)]), ("B", ["A"], []), ("C", ["object"], []), ("D", ["C", "A", "ABC"], [("f", true), ("g", false)])] =
    .ok [[true, false], [true, false], [false, false], [true, false]] := by decide +kernel

example : abstractIn [("A", ["ABC"], [("g", true)]), ("B", ["ABC"], []), ("C", ["B", "A"], [("g", true)])] =
    .ok [[false, true], [false, false], [false, true]] := by decide +kernel

example : abstractIn [("A", ["ABC"], []), ("B", ["A"], []), ("C", ["B"], [("f", false), ("g", false)]), ("D", ["C"], [("f", true), ("g", true)]), ("E", ["D"], [("f", false)])] =
    .ok [[false, false], [false, false], [false, false], [true, true], [false, true]] := by decide +kernel

example : abstractIn [("A", ["ABC"], [("f", false), ("g", true)]), ("B", ["A", "ABC"], [("f", true), ("g", true)]), ("C", ["ABC"], [("f", true)]), ("D", ["A"], [("g", true)])] =
    .ok [[false, true], [true, true], [true, false], [false, true]] := by decide +kernel

example : abstractIn [("A", ["object"], [("g", true)]), ("B", ["A", "ABC"], [("f", false), ("g", true)]), ("C", ["A"], [("g", true)]), ("D", ["C", "B"], [("f", false), ("g", false)]), ("E", ["B", "ABC"], [("f", false)]), ("F", ["D", "ABC"], [("f", false), ("g", false)])] =
    .ok [[false, false], [false, true], [false, false], [false, false], [false, true], [false, false]] := by decide +kernel

example : abstractIn [("A", ["ABC"], [("f", true), ("g", true)]), ("B", ["A"], [("f", false), ("g", true)]), ("C", ["object"], [("f", true)]), ("D", ["C"], []), ("E", ["D", "C"], [("f", false)]), ("F", ["D", "A"], [("f", true), ("g", false)])] =
    .ok [[true, true], [false, true], [false, false], [false, false], [false, false], [true, false]] := by decide +kernel

example : abstractIn [("A", ["ABC"], [("g", true)]), ("B", ["A"], []), ("C", ["B", "ABC"], [("f", true), ("g", false)]), ("D", ["C"], [("f", true)]), ("E", ["B"], []), ("F", ["E"], [("f", true)])] =
    .ok [[false, true], [false, true], [true, false], [true, false], [false, true], [true, true]] := by decide +kernel

example : abstractIn [("A", ["ABC"], [("f", true), ("g", true)]), ("B", ["A"], [("f", true)]), ("C", ["B"], [("g", true)])] =
    .ok [[true, true], [true, true], [true, true]] := by decide +kernel

example : abstractIn [("A", ["ABC"], [("f", true), ("g", true)]), ("B", ["A", "ABC"], [("f", true), ("g", false)]), ("C", ["A"], [("g", false)])] =
    .ok [[true, true], [true, false], [true, false]] := by decide +kernel

example : abstractIn [("A", ["ABC"], [("g", true)]), ("B", ["A"], [("f", true), ("g", true)]), ("C", ["A"], [("g", true)]), ("D", ["B"], [("f", true), ("g", true)]), ("E", ["A"], [("f", false), ("g", true)]), ("F", ["D", "ABC"], [("f", true)])] =
    .ok [[false, true], [true, true], [false, true], [true, true], [false, true], [true, true]] := by decide +kernel

example : abstractIn [("A", ["ABC"], [("f", true), ("g", false)]), ("B", ["A"], [("g", false)]), ("C", ["B", "A", "ABC"], [("f", true), ("g", false)]), ("D", ["B", "ABC"], [("f", true)]), ("E", ["D", "B"], [("f", true), ("g", false)])] =
    .ok [[true, false], [true, false], [true, false], [true, false], [true, false]] := by decide +kernel

example : abstractIn [("A", ["ABC"], [("f", false)]), ("B", ["A"], []), ("C", ["A"], [("f", false), ("g", true)])] =
    .ok [[false, false], [false, false], [false, true]] := by decide +kernel

example : abstractIn [("A", ["object"], [("f", true), ("g", true)]), ("B", ["A"], [("f", true)]), ("C", ["A"], [("f", false)]), ("D", ["A", "ABC"], [("g", true)]), ("E", ["D"], [("f", true), ("g", true)]), ("F", ["C"], [("g", true)]), ("G", ["object"], [])] =
    .ok [[false, false], [false, false], [false, false], [false, true], [true, true], [false, false], [false, false]] := by decide +kernel

example : abstractIn [("A", ["object"], [("f", true), ("g", true)]), ("B", ["A"], [("f", false)]), ("C", ["B", "A"], [("f", true), ("g", true)]), ("D", ["B"], [("g", true)]), ("E", ["C", "D"], [("f", true), ("g", true)]), ("F", ["ABC"], [("f", true)])] =
    .ok [[false, false], [false, false], [false, false], [false, false], [false, false], [true, false]] := by decide +kernel

example : abstractIn [("A", ["ABC"], [("g", false)]), ("B", ["A"], [("f", false), ("g", true)]), ("C", ["B"], [("g", true)]), ("D", ["B"], [("g", false)]), ("E", ["B"], [("f", true)]), ("F", ["ABC"], [])] =
    .ok [[false, false], [false, true], [false, true], [false, false], [true, true], [false, false]] := by decide +kernel

example : abstractIn [("A", ["ABC"], [("f", true)]), ("B", ["A"], [("f", true)]), ("C", ["A"], [("f", false)])] =
    .ok [[true, false], [true, false], [false, false]] := by decide +kernel

example : abstractIn [("A", ["ABC"], [("g", true)]), ("B", ["object"], [("f", false)]), ("C", ["A", "B"], [("f", true), ("g", true)])] =
    .ok [[false, true], [false, false], [true, true]] := by decide +kernel

example : abstractIn [("A", ["ABC"], [("f", true)]), ("B", ["A"], [("f", true)]), ("C", ["B", "A"], []), ("D", ["B"], [("g", true)]), ("E", ["D", "ABC"], []), ("F", ["D"], [("f", true), ("g", true)]), ("G", ["B"], [("f", true)])] =
    .ok [[true, false], [true, false], [true, false], [true, true], [true, true], [true, true], [true, false]] := by decide +kernel

example : abstractIn [("A", ["ABC"], [("g", true)]), ("B", ["A"], []), ("C", ["object"], [("f", true)]), ("D", ["A"], [("f", true)]), ("E", ["A"], [("g", true)])] =
    .ok [[false, true], [false, true], [false, false], [true, true], [false, true]] := by decide +kernel

example : abstractIn [("A", ["ABC"], [("f", false), ("g", true)]), ("B", ["A", "ABC"], [("f", false), ("g", false)]), ("C", ["B", "A"], [("f", true), ("g", true)]), ("D", ["C"], []), ("E", ["B"], [("g", true)])] =
    .ok [[false, true], [false, false], [true, true], [true, true], [false, true]] := by decide +kernel

example : abstractIn [("A", ["ABC"], [("f", true)]), ("B", ["A"], []), ("C", ["A", "ABC"], []), ("D", ["C", "B"], [])] =
    .ok [[true, false], [true, false], [true, false], [true, false]] := by decide +kernel

example : abstractIn [("A", ["object"], [("g", false)]), ("B", ["A"], [("f", true), ("g", true)]), ("C", ["B", "ABC"], [("f", false), ("g", true)]), ("D", ["C"], []), ("E", ["D", "ABC"], []), ("F", ["B"], [("f", false), ("g", false)])] =
    .ok [[false, false], [false, false], [false, true], [false, true], [false, true], [false, false]] := by decide +kernel

example : abstractIn [("A", ["ABC"], []), ("B", ["A"], [("f", true), ("g", true)]), ("C", ["A"], [("g", false)]), ("D", ["A"], []), ("E", ["B"], [("g", true)]), ("F", ["B", "A"], [("f", false), ("g", false)])] =
    .ok [[false, false], [true, true], [false, false], [false, false], [true, true], [false, false]] := by decide +kernel

example : abstractIn [("A", ["ABC"], [("f", true), ("g", true)]), ("B", ["A"], [("f", false)]), ("C", ["B", "A"], [("f", true), ("g", true)]), ("D", ["B", "A"], [])] =
    .ok [[true, true], [false, true], [true, true], [false, true]] := by decide +kernel

example : abstractIn [("A", ["ABC"], [("g", true)]), ("B", ["A"], [("f", false), ("g", false)]), ("C", ["B", "A"], [("f", false)]), ("D", ["B"], [("g", false)]), ("E", ["D", "A"], [("f", false)]), ("F", ["ABC"], [("f", true), ("g", true)]), ("G", ["F", "C"], [("g", true)])] =
    .ok [[false, true], [false, false], [false, false], [false, false], [false, false], [true, true], [true, true]] := by decide +kernel

example : abstractIn [("A", ["ABC"], [("g", true)]), ("B", ["A", "ABC"], [("f", true)]), ("C", ["ABC"], [("f", true), ("g", true)])] =
    .ok [[false, true], [true, true], [true, true]] := by decide +kernel

example : abstractIn [("A", ["ABC"], [("f", true)]), ("B", ["object"], []), ("C", ["A", "B"], [("f", true)])] =
    .ok [[true, false], [false, false], [true, false]] := by decide +kernel

example : abstractIn [("A", ["ABC"], [("f", true)]), ("B", ["ABC"], [("f", false)]), ("C", ["B", "A", "ABC"], [("g", true)]), ("D", ["B"], [("f", true), ("g", true)]), ("E", ["C"], [("g", false)]), ("F", ["A"], [("f", true), ("g", true)])] =
    .ok [[true, false], [false, false], [false, true], [true, true], [false, false], [true, true]] := by decide +kernel

example : abstractIn [("A", ["ABC"], []), ("B", ["A"], [("f", true), ("g", false)]), ("C", ["A"], [("g", true)]), ("D", ["C"], [("f", false), ("g", false)]), ("E", ["D", "B"], [("g", true)])] =
    .ok [[false, false], [true, false], [false, true], [false, false], [false, true]] := by decide +kernel

example : abstractIn [("A", ["ABC"], [("f", true), ("g", true)]), ("B", ["A", "ABC"], []), ("C", ["B"], [("f", true), ("g", true)])] =
    .ok [[true, true], [true, true], [true, true]] := by decide +kernel

example : abstractIn [("A", ["ABC"], []), ("B", ["A"], [("f", true)]), ("C", ["A"], [("g", true)]), ("D", ["C", "B"], [("f", false), ("g", true)])] =
    .ok [[false, false], [true, false], [false, true], [false, true]] := by decide +kernel

example : abstractIn [("A", ["ABC"], [("g", false)]), ("B", ["A"], []), ("C", ["B", "A"], [("f", true), ("g", true)]), ("D", ["B"], [("f", true)])] =
    .ok [[false, false], [false, false], [true, true], [true, false]] := by decide +kernel

example : abstractIn [("A", ["ABC"], [("f", false), ("g", true)]), ("B", ["A"], [("f", true)]), ("C", ["B", "A"], [("f", true), ("g", false)]), ("D", ["A"], [("f", true)]), ("E", ["D", "C"], [("f", true), ("g", true)])] =
    .ok [[false, true], [true, true], [true, false], [true, true], [true, true]] := by decide +kernel

example : abstractIn [("A", ["ABC"], [("g", false)]), ("B", ["A"], [("g", false)]), ("C", ["ABC"], [("f", false)]), ("D", ["A"], []), ("E", ["D", "B"], [("f", true), ("g", false)]), ("F", ["C"], [("f", true), ("g", false)])] =
    .ok [[false, false], [false, false], [false, false], [false, false], [true, false], [true, false]] := by decide +kernel

example : abstractIn [("A", ["ABC"], []), ("B", ["A"], [("g", true)]), ("C", ["A"], [("f", true), ("g", true)])] =
    .ok [[false, false], [false, true], [true, true]] := by decide +kernel

example : abstractIn [("A", ["object"], [("f", false)]), ("B", ["A", "ABC"], [("f", true)]), ("C", ["A"], [("f", false), ("g", false)])] =
    .ok [[false, false], [true, false], [false, false]] := by decide +kernel

example : abstractIn [("A", ["ABC"], [("g", false)]), ("B", ["A"], [("f", true)]), ("C", ["A"], [("g", false)])] =
    .ok [[false, false], [true, false], [false, false]] := by decide +kernel

example : abstractIn [("A", ["ABC"], [("f", false)]), ("B", ["A"], [("f", true), ("g", true)]), ("C", ["A", "ABC"], []), ("D", ["A"], [("g", false)]), ("E", ["A", "ABC"], [("f", true)])] =
    .ok [[false, false], [true, true], [false, false], [false, false], [true, false]] := by decide +kernel

example : abstractIn [("A", ["ABC"], [("f", false)]), ("B", ["A"], [("g", true)]), ("C", ["B", "A"], [("g", false)]), ("D", ["ABC"], [("g", false)]), ("E", ["C"], [("f", false), ("g", true)]), ("F", ["D"], [("g", true)])] =
    .ok [[false, false], [false, true], [false, false], [false, false], [false, true], [false, true]] := by decide +kernel

example : abstractIn [("A", ["ABC"], [("f", true), ("g", false)]), ("B", ["A"], [("f", true)]), ("C", ["B"], [])] =
    .ok [[true, false], [true, false], [true, false]] := by decide +kernel

example : abstractIn [("A", ["ABC"], [("g", true)]), ("B", ["object"], [("f", true), ("g", true)]), ("C", ["B", "A"], [("f", false)]), ("D", ["C", "ABC"], []), ("E", ["B", "A"], [("f", true)]), ("F", ["E"], []), ("G", ["F"], [("f", true)])] =
    .ok [[false, true], [false, false], [false, true], [false, true], [true, true], [true, true], [true, true]] := by decide +kernel

example : abstractIn [("A", ["ABC"], []), ("B", ["A", "ABC"], [("f", true), ("g", true)]), ("C", ["B"], []), ("D", ["C"], [("g", true)]), ("E", ["C", "B"], [("g", false)]), ("F", ["ABC"], [])] =
    .ok [[false, false], [true, true], [true, true], [true, true], [true, false], [false, false]] := by decide +kernel

example : abstractIn [("A", ["ABC"], []), ("B", ["A"], [("f", false)]), ("C", ["A"], [("f", false)]), ("D", ["B", "ABC"], [("f", true), ("g", true)]), ("E", ["object"], [("f", false), ("g", false)])] =
    .ok [[false, false], [false, false], [false, false], [true, true], [false, false]] := by decide +kernel

example : abstractIn [("A", ["ABC"], [("f", false)]), ("B", ["A"], []), ("C", ["A"], [("g", true)]), ("D", ["B"], [("f", true)]), ("E", ["C", "ABC"], [("f", false)])] =
    .ok [[false, false], [false, false], [false, true], [true, false], [false, true]] := by decide +kernel

example : abstractIn [("A", ["ABC"], [("f", false)]), ("B", ["A"], [("g", false)]), ("C", ["B"], [("f", true), ("g", true)]), ("D", ["B", "ABC"], [("g", true)])] =
    .ok [[false, false], [false, false], [true, true], [false, true]] := by decide +kernel

example : abstractIn [("A", ["ABC"], []), ("B", ["A"], [("f", false)]), ("C", ["B"], [("f", true), ("g", false)])] =
    .ok [[false, false], [false, false], [true, false]] := by decide +kernel

example : abstractIn [("A", ["ABC"], []), ("B", ["ABC"], []), ("C", ["A", "B"], [("f", true)])] =
    .ok [[false, false], [false, false], [true, false]] := by decide +kernel

example : abstractIn [("A", ["ABC"], []), ("B", ["A", "ABC"], [("f", false)]), ("C", ["A"], [("f", true)])] =
    .ok [[false, false], [false, false], [true, false]] := by decide +kernel

example : abstractIn [("A", ["ABC"], [("f", false)]), ("B", ["A"], [("f", true)]), ("C", ["ABC"], [("f", true), ("g", false)]), ("D", ["B", "A"], [])] =
    .ok [[false, false], [true, false], [true, false], [true, false]] := by decide +kernel

example : abstractIn [("A", ["ABC"], [("f", true)]), ("B", ["ABC"], [("f", true), ("g", true)]), ("C", ["A"], [("f", false), ("g", true)]), ("D", ["A"], [("f", false)]), ("E", ["A"], []), ("F", ["E", "A"], [("f", true)])] =
    .ok [[true, false], [true, true], [false, true], [false, false], [true, false], [true, false]] := by decide +kernel

example : abstractIn [("A", ["object"], []), ("B", ["A"], [("f", false), ("g", true)]), ("C", ["A", "ABC"], [("f", true)]), ("D", ["B"], [("f", false)])] =
    .ok [[false, false], [false, false], [true, false], [false, false]] := by decide +kernel

example : abstractIn [("A", ["ABC"], [("f", true), ("g", false)]), ("B", ["A", "ABC"], [("g", true)]), ("C", ["B", "A", "ABC"], [])] =
    .ok [[true, false], [true, true], [true, true]] := by decide +kernel

example : abstractIn [("A", ["ABC"], [("g", false)]), ("B", ["A"], [("f", true), ("g", false)]), ("C", ["ABC"], [])] =
    .ok [[false, false], [true, false], [false, false]] := by decide +kernel

end Fauxdoc.Conform
