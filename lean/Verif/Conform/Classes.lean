import Verif.Model.Classes
import Verif.Conform.Basic
/-
Generated by tools/conform_classes.py: method resolution orders of CPython.
-/
namespace Fauxdoc.Conform
open Fauxdoc.Cls

/-- The order of the last class of a hierarchy, or the error of a class statement. -/
def lastMro (env : Classes) (classes : List (Name × List Name)) : Except Err (List Name) :=
  match defineAll env classes with
  | .error e => .error e
  | .ok env =>
    match env with
    | [] => .ok []
    | (_, l) :: _ => .ok l

/-- The orders of all classes, the latest first. -/
def allMros (classes : List (Name × List Name)) : Except Err (List (List Name)) :=
  match defineAll builtins classes with
  | .error e => .error e
  | .ok env => .ok (env.map Prod.snd)

example : allMros library = .ok [
  ["Field", "RandomWithChildrenMixin", "RandomMixin", "ChildrenMixin", "Generic", "object"],
  ["BasedOnFields", "RandomMixin", "Emitter", "Generic", "ABC", "object"],
  ["CopyFields", "Emitter", "Generic", "ABC", "object"],
  ["WrapMany", "RandomWithChildrenMixin", "RandomMixin", "ChildrenMixin", "Emitter", "Generic", "ABC", "object"],
  ["WrapOne", "RandomWithChildrenMixin", "RandomMixin", "ChildrenMixin", "Emitter", "Generic", "ABC", "object"],
  ["_deprecated_Wrap", "RandomWithChildrenMixin", "RandomMixin", "ChildrenMixin", "Emitter", "Generic", "ABC", "object"],
  ["Text", "RandomWithChildrenMixin", "RandomMixin", "ChildrenMixin", "Emitter", "Generic", "ABC", "object"],
  ["Word", "RandomWithChildrenMixin", "RandomMixin", "ChildrenMixin", "Emitter", "Generic", "ABC", "object"],
  ["Sequential", "ItemsMixin", "Emitter", "Generic", "ABC", "object"],
  ["Iterative", "Emitter", "Generic", "ABC", "object"],
  ["Static", "ItemsMixin", "Emitter", "Generic", "ABC", "object"],
  ["Choice", "RandomMixin", "ItemsMixin", "Emitter", "Generic", "ABC", "object"],
  ["RandomWithChildrenMixin", "RandomMixin", "ChildrenMixin", "object"],
  ["ChildrenMixin", "object"],
  ["ItemsMixin", "Generic", "object"],
  ["RandomMixin", "object"],
  ["Emitter", "Generic", "ABC", "object"],
  ["ABC", "object"],
  ["Generic", "object"],
  ["object"]] := by decide +kernel

example : lastMro builtins [("A", ["object"]), ("B", ["A"]), ("C", ["B", "A"]), ("D", ["B", "A"])] =
    .ok ["D", "B", "A", "object"] := by decide +kernel

example : lastMro builtins [("A", ["object"]), ("B", ["A"]), ("C", ["A", "B"])] =
    .error .typeError := by decide +kernel

example : lastMro builtins [("A", ["object"]), ("B", ["A"]), ("C", ["A"]), ("D", ["A", "C", "B"])] =
    .error .typeError := by decide +kernel

example : lastMro builtins [("A", ["object"]), ("B", ["A"]), ("C", ["A", "B"])] =
    .error .typeError := by decide +kernel

example : lastMro builtins [("A", ["object"]), ("B", ["A"]), ("C", ["B", "A"]), ("D", ["B", "C"])] =
    .error .typeError := by decide +kernel

example : lastMro builtins [("A", ["object"]), ("B", ["A"]), ("C", ["A", "B"])] =
    .error .typeError := by decide +kernel

example : lastMro builtins [("A", ["object"]), ("B", ["A"]), ("C", ["B"]), ("D", ["C", "B"]), ("E", ["A", "D"])] =
    .error .typeError := by decide +kernel

example : lastMro builtins [("A", ["object"]), ("B", ["A"]), ("C", ["A", "B"])] =
    .error .typeError := by decide +kernel

example : lastMro builtins [("A", ["object"]), ("B", ["A"]), ("C", ["B"]), ("D", ["B", "C"])] =
    .error .typeError := by decide +kernel

example : lastMro builtins [("A", ["object"]), ("B", ["A"]), ("C", ["A", "B"])] =
    .error .typeError := by decide +kernel

example : lastMro builtins [("A", ["object"]), ("B", ["A"]), ("C", ["A"]), ("D", ["C"]), ("E", ["C", "B"]), ("F", ["D", "C"]), ("G", ["B"])] =
    .ok ["G", "B", "A", "object"] := by decide +kernel

example : lastMro builtins [("A", ["object"]), ("B", ["A"]), ("C", ["A"]), ("D", ["B"]), ("E", ["C", "A"])] =
    .ok ["E", "C", "A", "object"] := by decide +kernel

example : lastMro builtins [("A", ["object"]), ("B", ["A"]), ("C", ["B", "A"]), ("D", ["A", "C"])] =
    .error .typeError := by decide +kernel

example : lastMro builtins [("A", ["object"]), ("B", ["A"]), ("C", ["A", "B"])] =
    .error .typeError := by decide +kernel

example : lastMro builtins [("A", ["object"]), ("B", ["A"]), ("C", ["B"]), ("D", ["C", "B", "A"])] =
    .ok ["D", "C", "B", "A", "object"] := by decide +kernel

example : lastMro builtins [("A", ["object"]), ("B", ["A"]), ("C", ["B", "A"])] =
    .ok ["C", "B", "A", "object"] := by decide +kernel

example : lastMro builtins [("A", ["object"]), ("B", ["A"]), ("C", ["A"]), ("D", ["B", "C"])] =
    .ok ["D", "B", "C", "A", "object"] := by decide +kernel

example : lastMro builtins [("A", ["object"]), ("B", ["A"]), ("C", ["A"]), ("D", ["C", "B", "A"]), ("E", ["B"]), ("F", ["E", "A", "B"])] =
    .error .typeError := by decide +kernel

example : lastMro builtins [("A", ["object"]), ("B", ["A"]), ("C", ["B", "A"]), ("D", ["B", "C"])] =
    .error .typeError := by decide +kernel

example : lastMro builtins [("A", ["object"]), ("B", ["A"]), ("C", ["B", "A"]), ("D", ["B", "A"]), ("E", ["D", "B"])] =
    .ok ["E", "D", "B", "A", "object"] := by decide +kernel

example : lastMro builtins [("A", ["object"]), ("B", ["A"]), ("C", ["B", "A"]), ("D", ["A", "C", "B"])] =
    .error .typeError := by decide +kernel

example : lastMro builtins [("A", ["object"]), ("B", ["A"]), ("C", ["A", "B"])] =
    .error .typeError := by decide +kernel

example : lastMro builtins [("A", ["object"]), ("B", ["A"]), ("C", ["A"]), ("D", ["C"]), ("E", ["A", "B"])] =
    .error .typeError := by decide +kernel

example : lastMro builtins [("A", ["object"]), ("B", ["A"]), ("C", ["B"]), ("D", ["A", "C", "B"])] =
    .error .typeError := by decide +kernel

example : lastMro builtins [("A", ["object"]), ("B", ["A"]), ("C", ["A"]), ("D", ["A", "C"])] =
    .error .typeError := by decide +kernel

example : lastMro builtins [("A", ["object"]), ("B", ["A"]), ("C", ["B", "A"]), ("D", ["B"])] =
    .ok ["D", "B", "A", "object"] := by decide +kernel

example : lastMro builtins [("A", ["object"]), ("B", ["A"]), ("C", ["A", "B"])] =
    .error .typeError := by decide +kernel

example : lastMro builtins [("A", ["object"]), ("B", ["A"]), ("C", ["B"]), ("D", ["C", "B"]), ("E", ["B"]), ("F", ["E", "B"])] =
    .ok ["F", "E", "B", "A", "object"] := by decide +kernel

example : lastMro builtins [("A", ["object"]), ("B", ["A"]), ("C", ["A", "B"])] =
    .error .typeError := by decide +kernel

example : lastMro builtins [("A", ["object"]), ("B", ["A"]), ("C", ["B"]), ("D", ["C", "B"]), ("E", ["A"]), ("F", ["E"]), ("G", ["A"]), ("H", ["E", "C"])] =
    .ok ["H", "E", "C", "B", "A", "object"] := by decide +kernel

example : lastMro builtins [("A", ["object"]), ("B", ["A"]), ("C", ["A"]), ("D", ["B", "A"])] =
    .ok ["D", "B", "A", "object"] := by decide +kernel

example : lastMro builtins [("A", ["object"]), ("B", ["A"]), ("C", ["B", "A"]), ("D", ["C", "A"])] =
    .ok ["D", "C", "B", "A", "object"] := by decide +kernel

example : lastMro builtins [("A", ["object"]), ("B", ["A"]), ("C", ["A"]), ("D", ["B", "C", "A"])] =
    .ok ["D", "B", "C", "A", "object"] := by decide +kernel

example : lastMro builtins [("A", ["object"]), ("B", ["A"]), ("C", ["B", "A"]), ("D", ["C"]), ("E", ["C", "A"])] =
    .ok ["E", "C", "B", "A", "object"] := by decide +kernel

example : lastMro builtins [("A", ["object"]), ("B", ["A"]), ("C", ["B", "A"]), ("D", ["C", "A"]), ("E", ["A"]), ("F", ["C", "E"]), ("G", ["C", "E"]), ("H", ["G", "A"])] =
    .ok ["H", "G", "C", "B", "E", "A", "object"] := by decide +kernel

example : lastMro builtins [("A", ["object"]), ("B", ["A"]), ("C", ["B"]), ("D", ["C", "B"]), ("E", ["B"]), ("F", ["A"])] =
    .ok ["F", "A", "object"] := by decide +kernel

example : lastMro builtins [("A", ["object"]), ("B", ["A"]), ("C", ["B", "A"]), ("D", ["C", "A"])] =
    .ok ["D", "C", "B", "A", "object"] := by decide +kernel

example : lastMro builtins [("A", ["object"]), ("B", ["A"]), ("C", ["B", "A"])] =
    .ok ["C", "B", "A", "object"] := by decide +kernel

example : lastMro builtins [("A", ["object"]), ("B", ["A"]), ("C", ["B", "A"]), ("D", ["A"]), ("E", ["B"])] =
    .ok ["E", "B", "A", "object"] := by decide +kernel

example : lastMro builtins [("A", ["object"]), ("B", ["A"]), ("C", ["B", "A"]), ("D", ["C", "A"])] =
    .ok ["D", "C", "B", "A", "object"] := by decide +kernel

example : lastMro builtins [("A", ["object"]), ("B", ["A"]), ("C", ["B", "A"]), ("D", ["C"]), ("E", ["D", "B"])] =
    .ok ["E", "D", "C", "B", "A", "object"] := by decide +kernel

example : lastMro builtins [("A", ["object"]), ("B", ["A"]), ("C", ["B", "A"]), ("D", ["C", "A"])] =
    .ok ["D", "C", "B", "A", "object"] := by decide +kernel

example : lastMro builtins [("A", ["object"]), ("B", ["A"]), ("C", ["B", "A"])] =
    .ok ["C", "B", "A", "object"] := by decide +kernel

example : lastMro builtins [("A", ["object"]), ("B", ["A"]), ("C", ["B", "A"])] =
    .ok ["C", "B", "A", "object"] := by decide +kernel

example : lastMro builtins [("A", ["object"]), ("B", ["A"]), ("C", ["B", "A"]), ("D", ["C", "A"])] =
    .ok ["D", "C", "B", "A", "object"] := by decide +kernel

example : lastMro builtins [("A", ["object"]), ("B", ["A"]), ("C", ["A"]), ("D", ["C", "B"])] =
    .ok ["D", "C", "B", "A", "object"] := by decide +kernel

example : lastMro builtins [("A", ["object"]), ("B", ["A"]), ("C", ["A"]), ("D", ["B", "C"]), ("E", ["C"]), ("F", ["B"]), ("G", ["D"])] =
    .ok ["G", "D", "B", "C", "A", "object"] := by decide +kernel

example : lastMro builtins [("A", ["object"]), ("B", ["A"]), ("C", ["B", "A"]), ("D", ["C"])] =
    .ok ["D", "C", "B", "A", "object"] := by decide +kernel

example : lastMro builtins [("A", ["object"]), ("B", ["A"]), ("C", ["A"]), ("D", ["B"]), ("E", ["D", "A"]), ("F", ["E"])] =
    .ok ["F", "E", "D", "B", "A", "object"] := by decide +kernel

example : lastMro builtins [("A", ["object"]), ("B", ["A"]), ("C", ["B"]), ("D", ["C", "A"])] =
    .ok ["D", "C", "B", "A", "object"] := by decide +kernel

example : lastMro builtins [("A", ["object"]), ("B", ["A"]), ("C", ["A"]), ("D", ["B", "A"]), ("E", ["D", "C"])] =
    .ok ["E", "D", "B", "C", "A", "object"] := by decide +kernel

example : lastMro builtins [("A", ["object"]), ("B", ["A"]), ("C", ["B", "A"])] =
    .ok ["C", "B", "A", "object"] := by decide +kernel

example : lastMro builtins [("A", ["object"]), ("B", ["A"]), ("C", ["B"]), ("D", ["C"]), ("E", ["C", "B"]), ("F", ["E", "B", "A"]), ("G", ["D"])] =
    .ok ["G", "D", "C", "B", "A", "object"] := by decide +kernel

example : lastMro builtins [("A", ["object"]), ("B", ["A"]), ("C", ["A"]), ("D", ["B", "A"]), ("E", ["C"])] =
    .ok ["E", "C", "A", "object"] := by decide +kernel

example : lastMro builtins [("A", ["object"]), ("B", ["A"]), ("C", ["B"]), ("D", ["B", "A"])] =
    .ok ["D", "B", "A", "object"] := by decide +kernel

example : lastMro builtins [("A", ["object"]), ("B", ["A"]), ("C", ["B"]), ("D", ["A"]), ("E", ["C", "D"]), ("F", ["D"]), ("G", ["F"])] =
    .ok ["G", "F", "D", "A", "object"] := by decide +kernel

example : lastMro builtins [("A", ["object"]), ("B", ["A"]), ("C", ["B", "A"])] =
    .ok ["C", "B", "A", "object"] := by decide +kernel

example : lastMro builtins [("A", ["object"]), ("B", ["A"]), ("C", ["B", "A"]), ("D", ["B"]), ("E", ["D"])] =
    .ok ["E", "D", "B", "A", "object"] := by decide +kernel

example : lastMro builtins [("A", ["object"]), ("B", ["A"]), ("C", ["B", "A"])] =
    .ok ["C", "B", "A", "object"] := by decide +kernel

example : lastMro builtins [("A", ["object"]), ("B", ["A"]), ("C", ["B"]), ("D", ["C", "A"])] =
    .ok ["D", "C", "B", "A", "object"] := by decide +kernel

end Fauxdoc.Conform
