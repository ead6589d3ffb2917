import Verif.Conform.Callbacks
/-
Single tests of `/repo/tests/test_profile.py`, run on the model (for the tables see
`Conform/Fields`). Left out: assignments to attributes that are read-only, and the field `id` of the
large schemas (9999 items are too many for the kernel; every field has a generator of its own, so the
other fields are not affected). `Sequential(range(1, 10000))` stops at 99 here. Dates are
proleptic ordinals.
-/
namespace Fauxdoc
namespace Conform
open World

/-- The fixture `emitter_unique`, line 30. -/
def subjectsOnce : Test Ref := pickOnce WORDS

/-- The fixture `emitter_each_unique`, line 37. -/
def subjectsDistinct : Test Ref := pickDistinct WORDS none

/-- `Sequential(range(1, 10000))`. -/
def counter : Test Ref := newSequential .other (ints 1 99) false

/-- `Field(name, Static(v), hide=hide)`. -/
def fixed (name : String) (v : Val) (hide : Bool) : Test Ref := field name (static v) none none hide none

/-- `Schema(*fields)`. -/
def schema (fs : List (Test Ref)) : Test (Dict Ref) := do
  let rs ← all fs
  let w ← PyM.get
  return Schema.setFields (fun r => (w.obj r).name) rs

/-- `schema.add_fields(*fields)`. -/
def add (d : Dict Ref) (fs : List (Test Ref)) : Test (Dict Ref) := do
  let rs ← all fs
  let w ← PyM.get
  return Schema.addFields (fun r => (w.obj r).name) d rs

/-- `schema.fields = ObjectMap({...})`. -/
def schemaOf : List (String × Test Ref) → Test (Dict Ref)
  | [] => return []
  | (k, m) :: l => do
    let r ← m
    let d ← schemaOf l
    return (k, r) :: d

/-- `assert schema.public_fields == {k: schema.fields[k] for k in p}` and
`assert schema.hidden_fields == {k: schema.fields[k] for k in h}`. -/
def shows (d : Dict Ref) (p h : List String) : Test Bool := do
  let w ← PyM.get
  let hide : Ref → Bool := fun r => (w.obj r).hide
  let at' : List String → List (String × Option Ref) := fun l => l.map fun k => (k, d.get? k)
  return decide ((Schema.publicFields hide d).map (fun kr => (kr.1, some kr.2)) = at' p ∧
    (Schema.hiddenFields hide d).map (fun kr => (kr.1, some kr.2)) = at' h)

/-- `assert schema() == v`. -/
def document? (d : Dict Ref) (v : Dict Val) : Test Bool := do
  return decide ((← document pyStr deep d) = v)

/-- `assert [schema() for _ in range(len(vs))] == vs`. -/
def documents? (d : Dict Ref) : List (Dict Val) → Test Bool
  | [] => return true
  | v :: vs => do
    let b ← document? d v
    let b' ← documents? d vs
    return b && b'

/-- Whether all of these hold. -/
def conj : List (Test Bool) → Test Bool
  | [] => return true
  | m :: ms => do
    let b ← m
    let b' ← conj ms
    return b && b'

/-- `assert r.num_unique_values == n`. -/
def nuvIs (r : Ref) (n : ℚ) : Test Bool := do return decide ((← nuv r) = some n)

/-- `assert r.rng_seed == x`. -/
def seedIs (r : Ref) (x : Int) : Test Bool := do return decide ((← seedOf r) = some x)

/-! `test_field_change_emitter`, line 136, `test_field_change_repeat_emitter`, line 142,
`test_field_change_gate_emitter`, line 148, `test_field_change_name`, line 154,
`test_field_change_hide`, line 161 -/
example : passes (do
    let f ← field "test" (static (s "initialized")) none none false none
    setEmitter f (← static (s "changed"))
    each f [s "changed"]) = true := by decide +kernel
example : passes (do
    let f ← field "test" (static (s "test")) (some (static (.int 1))) none false none
    setRepeat f (← static (.int 2))
    each f [.list [s "test", s "test"]]) = true := by decide +kernel
example : passes (do
    let f ← field "test" (static (s "test")) none (some (static (.bool false))) false none
    setGate f (← static (.bool true))
    each f [s "test"]) = true := by decide +kernel
example : passes (do
    let f ← fixed "test" (s "test") false
    let n := ((← PyM.get).obj f).name
    setName f "new"
    return decide (n = "test" ∧ ((← PyM.get).obj f).name = "new")) = true := by decide +kernel
example : passes (do
    let f ← fixed "test" (s "test") true
    let h := ((← PyM.get).obj f).hide
    setHide f false
    return h && !((← PyM.get).obj f).hide) = true := by decide +kernel

/-! `test_field_single_value_global_unique_violation`, line 168 -/
example : passes (do
    let f ← field "subject" subjectsOnce none none false (some 999)
    let b ← each f (["chairs", "snowstorm", "eat", "yellow", "sluggish", "bicycle", "zebra",
      "sympathy", "happy", "flautist", "crazy", "warm"].map s)
    let b' ← expecting (one f) .valueError
    return b && b') = true := by decide +kernel

/-! `test_field_multi_value_global_unique_violation`, line 178 -/
example : passes (do
    let f ← field "unique_subjects" subjectsOnce (some (static (.int 5))) none false (some 999)
    let b ← each f [.list (["chairs", "snowstorm", "eat", "yellow", "sluggish"].map s),
      .list (["bicycle", "zebra", "sympathy", "happy", "flautist"].map s)]
    let b' ← expecting (one f) .valueError
    return b && b') = true := by decide +kernel

/-! `test_field_multi_value_each_unique_violation`, line 189 -/
example : passes (do
    let f ← field "unique_subjects_12" subjectsDistinct (some (static (.int 12))) none false (some 999)
    let g ← field "unique_subjects_13" subjectsDistinct (some (static (.int 13))) none false (some 999)
    let b ← each f [
      .list (["crazy", "warm", "eat", "sluggish", "happy", "zebra", "chairs", "snowstorm",
        "bicycle", "sympathy", "yellow", "flautist"].map s),
      .list (["sympathy", "eat", "bicycle", "chairs", "yellow", "happy", "warm", "zebra", "crazy",
        "flautist", "sluggish", "snowstorm"].map s)]
    let b' ← expecting (one g) .valueError
    return b && b') = true := by decide +kernel

/-- The common part of `test_field_reset_resets_and_reseeds_all_emitters`, line 224, and
`test_field_reset_resets_and_reseeds_changed_emitters`, line 242. -/
def resets (f e rp g : Ref) : Test Bool := do
  seed deep e (some 101010)
  seed deep rp (some 12345)
  seed deep g (some 54321)
  callTimes 12 f
  let b ← conj [nuvIs e 0, nuvIs rp 0]
  reset deep f
  let b' ← conj [nuvIs e 12, seedIs e 999, nuvIs rp 1, seedIs rp 999, seedIs g 999]
  return b && b'

/-- `choice.Choice([1] * 12, replace=False)`. -/
def onesOnce : Test Ref := newChoice .list (List.replicate 12 (.int 1)) none false false none none

example : passes (do
    let e ← subjectsOnce
    let rp ← onesOnce
    let g ← withChance 1
    let f ← newField deep "test" e (some rp) (some g) false (some 999)
    resets f e rp g) = true := by decide +kernel
example : passes (do
    let f ← field "test" (static (s "invalid")) none none false (some 999)
    let e ← subjectsOnce
    setEmitter f e
    let rp ← onesOnce
    setRepeat f rp
    let g ← withChance 1
    setGate f g
    resets f e rp g) = true := by decide +kernel

/-- The common part of `test_field_seed_reseeds_all_emitters`, line 265, and
`test_field_seed_reseeds_changed_emitters`, line 277. -/
def reseeds (f e rp g : Ref) : Test Bool := do
  seed deep e (some 101010)
  seed deep rp (some 12345)
  seed deep g (some 54321)
  seed deep f (some 999)
  conj [seedIs e 999, seedIs rp 999, seedIs g 999]

example : passes (do
    let e ← subjects
    let rp ← pick (ints 1 12) none
    let g ← withChance (3 / 4)
    let f ← newField deep "test" e (some rp) (some g) false none
    reseeds f e rp g) = true := by decide +kernel
example : passes (do
    let f ← field "test" (static (s "invalid")) none none false none
    let e ← subjects
    setEmitter f e
    let rp ← pick (ints 1 12) none
    setRepeat f rp
    let g ← withChance (3 / 4)
    setGate f g
    reseeds f e rp g) = true := by decide +kernel

/-- `NAMES`, line 18. -/
def NAMES : List Val :=
  ["Susan", "Leslie", "Boyle", "Johnny", "Anne", "Krane", "Rebecca", "Ashley", "William", "Henry",
    "Chuck", "Betty"].map s

/-- The fixture `name_emitter`, line 44. -/
def nameEmitter : Test Ref :=
  text (pick (ints 2 3) none) (pickDistinct NAMES none)
    (some (pick [s " ", s "-"] (some [90, 10]))) none

/-- The fixture `phrase_emitter`, line 62. -/
def phraseEmitter : Test Ref :=
  text (pick (ints 2 7) none) (pick WORDS none)
    (some (pick [s " ", s "-", s ", ", s "; ", s ": "] (some [80, 5, 10, 3, 2]))) none

/-- The fixture `date_emitter`, line 55. -/
def dateEmitter : Test Ref := pick (ints 735964 738154) none

/-- `poisson_choice(range(1, 6), mu=2)`, with the weights as doubles. -/
def poissonTwo : Test Ref :=
  pick (ints 1 5) (some [1218991862308979 / 2^52, 1218991862308979 / 2^52, 6501289932314555 / 2^55, 6501289932314555 / 2^56, 1300257986462911 / 2^55])

/-- `poisson_choice(range(1, 6), mu=1)`, with the weights as doubles. -/
def poissonOne : Test Ref :=
  pick (ints 1 5) (some [828390857088487 / 2^51, 828390857088487 / 2^52, 8836169142277195 / 2^57, 8836169142277195 / 2^59, 1767233828455439 / 2^59])

/-- The fields `contributors` to `hidden3` of the large schemas. -/
def moreFields : List (Test Ref) :=
  [field "contributors" nameEmitter (some poissonTwo) (some (withChance (66 / 100))) false none,
   field "subjects" phraseEmitter (some poissonOne) (some (withChance (9 / 10))) false none,
   fixed "hidden2" (s "TEST") true,
   field "creation_date" dateEmitter none none false none,
   fixed "hidden3" (s "TEST") true]

/-- A document of `test_schema_generates_record_dict`, without `id`. -/
def record (title author : String) (contributors : Option (List String)) (subjs : List String)
    (date : Int) : Dict Val :=
  [("title", s title), ("author", s author),
   ("contributors", match contributors with
     | some l => .list (l.map s)
     | none => .none),
   ("subjects", .list (subjs.map s)), ("creation_date", .int date)]

/-! `test_schema_generates_record_dict`, line 341 -/
example : passes (do
    let d ← schema ([fixed "hidden1" (s "TEST") true, field "title" phraseEmitter none none false none,
      field "author" nameEmitter none none false none] ++ moreFields)
    seedFields deep (some 999) d
    documents? d [
      record "eat bicycle crazy, yellow flautist warm eat" "Chuck Leslie" none
        ["eat bicycle crazy, yellow flautist warm", "eat zebra"] 736291,
      record "zebra eat" "Henry Betty William" (some ["Chuck Leslie Henry", "William Ashley",
        "Johnny Betty Boyle"]) ["eat crazy warm chairs-snowstorm zebra"] 738150,
      record "crazy warm chairs-snowstorm zebra: yellow" "Ashley Betty Boyle" none
        ["yellow: sluggish zebra crazy chairs", "snowstorm happy bicycle, bicycle"] 737973,
      record "sluggish zebra crazy chairs snowstorm happy" "Chuck Krane" (some ["Chuck Betty Leslie"])
        ["snowstorm: chairs yellow"] 737943,
      record "bicycle, bicycle: snowstorm chairs yellow snowstorm" "Chuck Betty Leslie" (some
        ["Chuck Johnny", "Boyle Anne Susan", "Krane Henry-Betty", "Leslie Rebecca William"])
        ["snowstorm sluggish warm crazy yellow; chairs flautist"] 736504,
      record "sluggish warm crazy; yellow chairs" "Chuck Johnny" (some ["Leslie Anne Susan",
        "Johnny William Betty"]) ["sluggish sluggish warm happy"] 737267,
      record "flautist sluggish sluggish warm, happy" "Boyle Anne" none
        ["flautist, sluggish snowstorm, warm crazy", "snowstorm eat zebra yellow bicycle"] 736363,
      record "flautist sluggish, snowstorm" "Henry Susan" (some ["Chuck-Krane Boyle",
        "Leslie Ashley Betty"]) ["eat flautist"] 736734,
      record "warm crazy snowstorm eat zebra yellow bicycle" "Betty-Anne Rebecca" none
        ["warm crazy yellow snowstorm-snowstorm",
        "eat snowstorm yellow zebra snowstorm happy crazy"] 736574,
      record "eat flautist warm crazy" "Johnny Chuck" none ["crazy chairs",
        "bicycle yellow, eat yellow crazy chairs bicycle"] 737047]) = true := by decide +kernel

/-! `test_schema_hidden_and_public_fields`, line 412 -/
example : passes (do
    let d ← schema [fixed "id" (.int 1) false, fixed "hidden1" (s "TEST") true,
      field "title" phraseEmitter none none false none, field "author" nameEmitter none none false none]
    let b ← shows d ["id", "title", "author"] ["hidden1"]
    let d' ← add d moreFields
    let b' ← shows d' ["id", "title", "author", "contributors", "subjects", "creation_date"]
      ["hidden1", "hidden2", "hidden3"]
    return b && b') = true := by decide +kernel

/-- The documents and fields of `test_schema_can_set_fields_directly`, line 524, and two others. -/
def titled (d : Dict Ref) : Test Bool :=
  conj [shows d ["id", "title", "author"] ["hidden1", "hidden2"],
    document? d [("id", .int 1), ("title", s "A Title"), ("author", s "An Author")]]

example : passes (do
    titled (← schemaOf [("id", field "id" counter none none false none),
      ("title", fixed "title" (s "A Title") false), ("hidden1", fixed "hidden1" (s "TEST") true),
      ("author", fixed "author" (s "An Author") false),
      ("hidden2", fixed "hidden2" (s "TEST") true)])) = true := by decide +kernel

/-! `test_schema_setfields`, line 551 -/
example : passes (do
    let _ ← schema [fixed "one" (.int 1) false, fixed "two" (.int 2) false, fixed "three" (.int 3) true]
    let d ← schema [fixed "a" (s "a") false, fixed "b" (s "b") true, fixed "c" (s "c") false]
    conj [shows d ["a", "c"] ["b"], document? d [("a", s "a"), ("c", s "c")]]) = true := by
  decide +kernel

/-! `test_schema_can_modify_fields_directly`, line 575 -/
example : passes (do
    let d ← schema [field "id" counter none none false none]
    let t ← fixed "title" (s "A Title") false
    let h ← fixed "hidden1" (s "TEST") true
    let a ← fixed "author" (s "An Author") false
    let h' ← fixed "hidden2" (s "TEST") true
    titled ((((d.set "title" t).set "hidden1" h).set "author" a).set "hidden2" h')) = true := by
  decide +kernel

/-! `test_schema_fields_key_name_mismatch_is_fine`, line 599 -/
example : passes (do
    titled (← schemaOf [("id", field "the" counter none none false none),
      ("title", fixed "field" (s "A Title") false), ("hidden1", fixed "name" (s "TEST") true),
      ("author", fixed "does not" (s "An Author") false),
      ("hidden2", fixed "matter" (s "TEST") true)])) = true := by decide +kernel

/-- `schema.fields[k].hide = b`. -/
def hideAt (d : Dict Ref) (k : String) (b : Bool) : Test Unit :=
  match d.get? k with
  | some r => setHide r b
  | none => PyM.raise .keyError

/-! `test_schema_can_hide_or_unhide_fields_dynamically`, line 628 -/
example : passes (do
    let d ← schema [field "id" counter none none false none, fixed "one" (s "field one") false,
      fixed "two" (s "field two") false, fixed "three" (s "field three") true,
      fixed "four" (s "field four") false]
    let b ← document? d [("id", .int 1), ("one", s "field one"), ("two", s "field two"),
      ("four", s "field four")]
    hideAt d "one" true
    hideAt d "two" true
    hideAt d "three" false
    let b' ← shows d ["id", "three", "four"] ["one", "two"]
    let b'' ← document? d [("id", .int 2), ("three", s "field three"), ("four", s "field four")]
    return b && b' && b'') = true := by decide +kernel

/-- `{key: field.previous for key, field in schema.fields.items()}`. -/
def previously (d : Dict Ref) : Test (Dict Val) := do
  let w ← PyM.get
  return d.map fun kr => (kr.1, (w.obj kr.2).cache)

/-! `test_schema_hidden_fields_are_still_evaluated`, line 661 -/
example : passes (do
    let d ← schema [field "id" counter none none false none, fixed "one" (s "field one") true,
      fixed "two" (s "field two") false, fixed "three" (s "field three") true,
      fixed "four" (s "field four") false]
    let p ← previously d
    let _ ← document pyStr deep d
    let p' ← previously d
    return decide (p = (["id", "one", "two", "three", "four"].map fun k => (k, .none)) ∧
      p' = [("id", .int 1), ("one", s "field one"), ("two", s "field two"),
        ("three", s "field three"), ("four", s "field four")])) = true := by decide +kernel

/-- The children of a field: emitter, repeat, gate. -/
def childOf (r : Ref) (i : Nat) : Test Ref := do
  match ((← PyM.get).obj r).node with
  | some (.field _ e rp g _) => return ([e, rp, g][i]?).getD 0
  | _ => PyM.raise .attributeError

/-- The loops over the fields of `test_schema_resetfields_resets_all_fields`. -/
def haveUnique (n n' : ℚ) : Dict Ref → Test Bool
  | [] => return true
  | (_, r) :: d => do
    let b ← nuvIs (← childOf r 0) n
    let b' ← nuvIs (← childOf r 1) n'
    let b'' ← haveUnique n n' d
    return b && b' && b''

/-- `[schema() for _ in range(n)]`. -/
def documentTimes : Nat → Dict Ref → Test Unit
  | 0, _ => return ()
  | n + 1, d => do
    let _ ← document pyStr deep d
    documentTimes n d

/-! `test_schema_resetfields_resets_all_fields`, line 682 -/
example : passes (do
    let d ← schemaOf [("test", field "test" subjectsOnce (some onesOnce) (some (withChance 1)) false none)]
    let d ← add d [field "test2" subjectsOnce (some onesOnce) (some (withChance 1)) false none]
    let d := d.set "test3"
      (← field "test3" subjectsOnce (some onesOnce) (some (withChance 1)) true none)
    documentTimes 12 d
    let b ← haveUnique 0 0 d
    resetFields deep d
    let b' ← haveUnique 12 1 d
    return b && b') = true := by decide +kernel

/-- The loop over the fields of `test_schema_seedfields_reseeds_all_fields`. -/
def haveSeed (x : Int) : Dict Ref → Test Bool
  | [] => return true
  | (_, r) :: d => do
    let e ← childOf r 0
    let rp ← childOf r 1
    let g ← childOf r 2
    let b ← conj [seedIs r x, seedIs e x, seedIs rp x, seedIs g x]
    let b' ← haveSeed x d
    return b && b'

/-! `test_schema_seedfields_reseeds_all_fields`, line 718 -/
example : passes (do
    let rp := pick (ints 1 12) none
    let g := withChance (3 / 4)
    let d ← schemaOf [("test", field "test" subjects (some rp) (some g) false (some 12345))]
    let d ← add d [field "test2" subjects (some rp) (some g) false (some 54321)]
    let d := d.set "test4" (← field "test4" subjects (some rp) (some g) true (some 212121))
    seedFields deep (some 999) d
    haveSeed 999 d) = true := by decide +kernel

end Conform
end Fauxdoc
