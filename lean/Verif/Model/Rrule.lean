import Verif.Model.Value

/-
Comparing, hashing and printing recurrence rules (/repo/src/ics/rrule.py).
-/
namespace Ics

/-- What is used of Python's values in `rrule_eq` and `rrule_hash` (/repo/src/ics/rrule.py:38-45): `==`, and `hash`, which
raises `TypeError` for values that cannot be hashed; `hash` of a string and of a tuple, given the hashes of its elements. -/
structure Hashing (α : Type) where
  eq : α → α → Bool
  hash : α → Except PyErr Int
  hashStr : Str → Int
  hashTuple : List Int → Int

/-- A `dateutil.rrule.rrule`: the attributes that `rrule_to_dict` reads (/repo/src/ics/rrule.py:18-27), `_original_rule` with its
items in order of insertion, and `str(rule)` (rrule.py:61, 63). -/
structure PyRule (α : Type) where
  interval : α
  count : α
  dtstart : α
  freq : α
  until_ : α
  wkst : α
  original : List (Str × α)
  text : Str

/-- `rrule_to_dict` (/repo/src/ics/rrule.py:18-27). -/
def ruleDict {α : Type} (r : PyRule α) : List (Str × α) :=
  dictUpdate [("interval".toList, r.interval), ("count".toList, r.count), ("dtstart".toList, r.dtstart),
    ("freq".toList, r.freq), ("until".toList, r.until_), ("wkst".toList, r.wkst)] r.original

/-- `==` of two `dict`s (/repo/src/ics/rrule.py:41): as many items, and every item of the first in the second. -/
def dictEqBy {κ ν : Type} [DecidableEq κ] (eq : ν → ν → Bool) (a b : List (κ × ν)) : Bool :=
  a.length = b.length && a.all fun kv =>
    match dictGet? b kv.1 with
    | none => false
    | some v => eq kv.2 v

/-- `==` of two `list`s (/repo/src/ics/rrule.py:55). -/
def listEqBy {ν : Type} (eq : ν → ν → Bool) : List ν → List ν → Bool
  | [], [] => true
  | a :: as, b :: bs => eq a b && listEqBy eq as bs
  | _, _ => false

/-- `rrule_eq` (/repo/src/ics/rrule.py:38-41); `none` for anything that is not a rule. -/
def ruleEq {α : Type} (H : Hashing α) (a : PyRule α) (b : Option (PyRule α)) : Bool :=
  match b with
  | none => false
  | some b => dictEqBy H.eq (ruleDict a) (ruleDict b)

/-- `hash(tuple(...))` (/repo/src/ics/rrule.py:45, 81-88): the elements are hashed in order. -/
def hashAll {α β : Type} (H : Hashing β) (hash : α → Except PyErr Int) (l : List α) : Except PyErr Int :=
  (l.mapM hash).map H.hashTuple

/-- `rrule_hash` (/repo/src/ics/rrule.py:44-45). -/
def ruleHash {α : Type} (H : Hashing α) (r : PyRule α) : Except PyErr Int :=
  hashAll H (fun kv => (H.hash kv.2).map fun h => H.hashTuple [H.hashStr kv.1, h]) (ruleDict r)

/-- A `dateutil.rrule.rruleset`: `_rrule`, `_exrule`, `_rdate`, `_exdate` (/repo/src/ics/rrule.py:52-55), the dates with their
`str`. -/
structure PyRuleSet (α : Type) where
  rrule : List (PyRule α)
  rdate : List α
  exrule : List (PyRule α)
  exdate : List α

/-- `rruleset_eq` (/repo/src/ics/rrule.py:52-55); `none` for anything that is not a set of rules. -/
def ruleSetEq {α : Type} (H : Hashing α) (a : PyRuleSet α) (b : Option (PyRuleSet α)) : Bool :=
  match b with
  | none => false
  | some b =>
    listEqBy (fun x y => ruleEq H x (some y)) a.rrule b.rrule && listEqBy H.eq a.rdate b.rdate
      && listEqBy (fun x y => ruleEq H x (some y)) a.exrule b.exrule && listEqBy H.eq a.exdate b.exdate

/-- `rruleset_hash` (/repo/src/ics/rrule.py:80-88). -/
def ruleSetHash {α : Type} (H : Hashing α) (s : PyRuleSet α) : Except PyErr Int :=
  match hashAll H (ruleHash H) s.rrule with
  | .error e => .error e
  | .ok h1 =>
    match hashAll H H.hash s.rdate with
    | .error e => .error e
    | .ok h2 =>
      match hashAll H (ruleHash H) s.exrule with
      | .error e => .error e
      | .ok h3 =>
        match hashAll H H.hash s.exdate with
        | .error e => .error e
        | .ok h4 => .ok (H.hashTuple [h1, h2, h3, h4])

/-- `rruleset_str` (/repo/src/ics/rrule.py:58-68); `str` is that of the dates. -/
def ruleSetStr {α : Type} (str : α → Str) (s : PyRuleSet α) : Str :=
  (s.rrule.map fun r => r.text ++ ['\n']).flatten ++ (s.exrule.map fun r => "EX".toList ++ r.text.drop 1 ++ ['\n']).flatten
    ++ (s.rdate.map fun d => str d ++ ['\n']).flatten ++ (s.exdate.map fun d => str d ++ ['\n']).flatten

end Ics
