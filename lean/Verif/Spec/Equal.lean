import Verif.Spec.Represent
import Verif.Model.Equal

/-
What it means that two components are equal, independent of the order of dictionaries, and which components are equal to what
they are read back as.
-/
namespace Ics

variable {σ : Type}

/-! ### Equal values -/

/-- Equal times: the same wall clock with the same zone object (whatever `fold` is), or the same instant in two zones in none of
which the offset depends on `fold`. -/
def EqualTime (e : Env) (a b : DT) : Prop :=
  (a.tz = b.tz ∧ a.wall = b.wall) ∨
    ∃ t u o p, a.tz = some t ∧ b.tz = some u ∧ t ≠ u ∧ (∀ fold, e.tzOff t a.wall fold = o) ∧
      (∀ fold, e.tzOff u b.wall fold = p) ∧ a.wall - o = b.wall - p

/-- Equal time spans. -/
structure EqualSpan (e : Env) (a b : Span) : Prop where
  cls : a.cls = b.cls
  begin : Option.Rel (EqualTime e) a.begin? b.begin?
  end_ : Option.Rel (EqualTime e) a.end? b.end?
  dur : a.dur? = b.dur?
  prec : a.prec = b.prec

/-- Equal parameters: the same texts for every name. -/
def EqualParams (p q : Params) : Prop :=
  ∀ k, (dictGet? p k).map (List.map PVal.text) = (dictGet? q k).map (List.map PVal.text)

/-- Equal entries of `extra_params`. -/
inductive EqualExtra : ExtraVal → ExtraVal → Prop
  | one {p q : Params} : EqualParams p q → EqualExtra (.one p) (.one q)
  | many {ps qs : List Params} : List.Forall₂ EqualParams ps qs → EqualExtra (.many ps) (.many qs)

mutual
/-- Equal content lines, or containers with the same name and equal items. -/
inductive EqualItem : Item → Item → Prop
  | line {n v : Str} {p q : Params} : EqualParams p q → EqualItem (.line ⟨n, p, v⟩) (.line ⟨n, q, v⟩)
  | cont {n : Str} {is js : List Item} : EqualItems is js → EqualItem (.cont n is) (.cont n js)

/-- As many items, equal one by one. -/
inductive EqualItems : List Item → List Item → Prop
  | nil : EqualItems [] []
  | cons {i j : Item} {is js : List Item} : EqualItem i j → EqualItems is js → EqualItems (i :: is) (j :: js)
end

/-- The number that a value is. -/
def Val.number : Val σ → Option Int
  | .int n => some n
  | .bool true => some 1
  | .bool false => some 0
  | _ => none

/-- Equal values; `R` says when two members are equal. -/
inductive EqualVal (e : Env) (R : σ → σ → Prop) : Val σ → Val σ → Prop
  | text (s : Str) : EqualVal e R (.text s) (.text s)
  | url (u : Url) : EqualVal e R (.url u) (.url u)
  | bytes (b : List (Fin 256)) : EqualVal e R (.bytes b) (.bytes b)
  | dur (us : Int) : EqualVal e R (.dur us) (.dur us)
  | geo (lat lon : Nat) : EqualVal e R (.geo lat lon) (.geo lat lon)
  | number {v w : Val σ} {n : Int} : v.number = some n → w.number = some n → EqualVal e R v w
  | dt {a b : DT} : EqualTime e a b → EqualVal e R (.dt a) (.dt b)
  | span {a b : Span} : EqualSpan e a b → EqualVal e R (.span a) (.span b)
  | person {att : Bool} {m : Email} {x y : Params} : EqualParams x y → EqualVal e R (.person att m x) (.person att m y)
  | comp {a b : σ} : R a b → EqualVal e R (.comp a) (.comp b)

/-- Equal attributes: both `None`, equal values, or lists with equal values in the same order. -/
inductive EqualAttr (e : Env) (R : σ → σ → Prop) : AttrVal σ → AttrVal σ → Prop
  | none : EqualAttr e R .none .none
  | one {v w : Val σ} : EqualVal e R v w → EqualAttr e R (.one v) (.one w)
  | many {l m : List (Val σ)} : List.Forall₂ (EqualVal e R) l m → EqualAttr e R (.many l) (.many m)

/-! ### Equal components -/

/-- Equal components. -/
structure EqualObj (e : Env) (R : σ → σ → Prop) (a b : Obj σ) : Prop where
  cls : a.cls = b.cls
  extraName : a.extraName = b.extraName
  extra : EqualItems a.extra b.extra
  attrs : ∀ k ∈ allAttrs a.cls, EqualAttr e R (a.get k.toList) (b.get k.toList)
  params : ∀ k, Option.Rel EqualExtra (dictGet? a.extraParams k) (dictGet? b.extraParams k)

/-- Equal alarms, which have no members. -/
def EqualAlarm (e : Env) (a b : Alarm) : Prop := EqualObj e (fun _ _ => False) a b

/-- Equal events or todos. -/
def EqualEntry (e : Env) (a b : EntryObj) : Prop := EqualObj e (EqualAlarm e) a b

/-- Equal calendars. -/
def EqualCalendar (e : Env) (a b : CalObj) : Prop := EqualObj e (EqualEntry e) a b

/-! ### Dictionaries are dictionaries -/

/-- No key occurs twice. -/
def ProperDict {ν : Type} (d : List (Str × ν)) : Prop := (d.map Prod.fst).Nodup

/-- The parameters of all lines are dictionaries. -/
inductive ProperItem : Item → Prop
  | line {cl : ContentLine} : ProperDict cl.params → ProperItem (.line cl)
  | cont {n : Str} {is : List Item} : (∀ i ∈ is, ProperItem i) → ProperItem (.cont n is)

/-- The dictionaries in a value; `M` says which members are proper. -/
def ProperVal (M : σ → Prop) : Val σ → Prop
  | .person _ _ x => ProperDict x
  | .comp m => M m
  | _ => True

/-- The dictionaries in an attribute. -/
def ProperAttr (M : σ → Prop) : AttrVal σ → Prop
  | .none => True
  | .one v => ProperVal M v
  | .many l => ∀ v ∈ l, ProperVal M v

/-- The dictionaries in an entry of `extra_params`. -/
def ProperExtra : ExtraVal → Prop
  | .one p => ProperDict p
  | .many ps => ∀ p ∈ ps, ProperDict p

/-- All dictionaries of a component are dictionaries, which is always so in Python. -/
structure ProperObj (M : σ → Prop) (o : Obj σ) : Prop where
  keys : ProperDict o.extraParams
  params : ∀ k x, dictGet? o.extraParams k = some x → ProperExtra x
  extra : ∀ i ∈ o.extra, ProperItem i
  attrs : ∀ k ∈ allAttrs o.cls, ProperAttr M (o.get k.toList)

/-- All dictionaries of an alarm. -/
def ProperAlarm (o : Alarm) : Prop := ProperObj (fun _ => True) o

/-- All dictionaries of an event or todo. -/
def ProperEntry (o : EntryObj) : Prop := ProperObj ProperAlarm o

/-- All dictionaries of a calendar. -/
def ProperCalendar (o : CalObj) : Prop := ProperObj ProperEntry o

/-! ### Settled components -/

/-- A component is in the value of an attribute. -/
inductive InAttr (m : σ) : AttrVal σ → Prop
  | one : InAttr m (.one (.comp m))
  | many {l : List (Val σ)} : .comp m ∈ l → InAttr m (.many l)

/-- A component with parameters as it has them after it was read: only under the names of its attributes, and a list of values
has none if it is empty and otherwise those of each value.  `M` says which members are settled. -/
structure SettledObj (M : σ → Prop) (o : Obj σ) : Prop where
  keys : ∀ k x, dictGet? o.extraParams k = some x →
    k ∈ (oneParamKeys o.cls ++ (listAttrs o.cls).map String.toUpper).map String.toList
  lists : ∀ k ∈ listAttrs o.cls, ∃ l, o.get k.toList = .many l ∧
    ((l = [] ∧ dictGet? o.extraParams k.toUpper.toList = none) ∨
      ∃ ps, l ≠ [] ∧ ps.length = l.length ∧ dictGet? o.extraParams k.toUpper.toList = some (.many ps))
  members : ∀ k ∈ allAttrs o.cls, ∀ m, InAttr m (o.get k.toList) → M m

/-- A settled alarm. -/
def SettledAlarm (o : Alarm) : Prop := SettledObj (fun _ => True) o

/-- A settled event or todo. -/
def SettledEntry (o : EntryObj) : Prop := SettledObj SettledAlarm o

/-- A settled calendar. -/
def SettledCalendar (o : CalObj) : Prop := SettledObj SettledEntry o

/-! ### Zones -/

/-- In no zone do two wall clocks whose offset does not depend on `fold` stand for the same instant.  A zone is not like this if
it gives an offset that does not depend on `fold` to the wall clocks that are skipped. -/
def OneToOne (e : Env) : Prop :=
  ∀ t w w', (∀ fold, e.tzOff t w fold = e.tzOff t w false) → (∀ fold, e.tzOff t w' fold = e.tzOff t w' false) →
    w - e.tzOff t w false = w' - e.tzOff t w' false → w = w'

end Ics
