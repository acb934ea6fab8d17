import Verif.Card
/-!
# INCLUDE_TRANSFORM and DEFINE_TRANSFORMATION

Model of `/repo/src/include_transform.c`. Strings that are allocated and returned are values. The
arithmetic of `double` is a parameter (`Arith`), and so is the conversion of a `double` to
`int64_t` (`toInt`, undefined behaviour if the value does not fit). `errno` is not looked at by this
code; a parse function that reports an error returns 0.
-/

namespace Dyna.Transform

open Dyna Dyna.Card

/-- `DEFAULT_VALUE_WIDTH` (`/repo/src/key.h:33`). -/
def valueWidth : Nat := 10

/-- A value of a function that reports an error through `errno`: the error value is dropped and the
returned value (`z`, 0 here) is used (`/repo/src/key.c:863-868,890-897,1140-1145`). -/
def orElse {α : Type} (r : Res α) (z : α) : Res α :=
  match r with
  | .err => .ok z
  | r => r

/-- `_card_try_parse_int` (`/repo/src/include_transform.c:243-261`): the new value of `*value`. -/
def tryInt {α : Type} (A : Arith α) (toInt : α → Res Int) (card : Card) (value : Int) : Res Int := do
  match ← card.getType card.width with
  | .int => orElse (card.parseInt card.width) 0
  | .float => do
    let f ← orElse (card.parseFloat A card.width) (A.ofNat 0)
    toInt f
  | .string => .ok value

/-- `_card_try_parse_float64` (`/repo/src/include_transform.c:263-278`): the new value of `*value`. -/
def tryFloat {α : Type} (A : Arith α) (card : Card) (value : α) : Res α := do
  match ← card.getType card.width with
  | .int => orElse (card.parseFloat A card.width) (A.ofNat 0)
  | .float => orElse (card.parseFloat A card.width) (A.ofNat 0)
  | .string => .ok value

/-- A loop `while (!card_parse_done(card) && value <= last) { try(card, value); card_parse_next(card);
value++; }` over consecutive values (`/repo/src/include_transform.c:77-84,107-113,191-197`). -/
def values {β : Type} (try_ : Card → β → Res β) : List β → Card → Res (List β × Card)
  | [], card => do
    let _ ← card.done
    .ok ([], card)
  | v :: vs, card => do
    if ← card.done then .ok (v :: vs, card)
    else
      let v ← try_ card v
      let card ← card.next
      let (vs, card) ← values try_ vs card
      .ok (v :: vs, card)

/-- `include_transform_t` (`/repo/src/include_transform.h:49-97`). `offsets` are the seven members from `idnoff`
to `iddoff` (node, element, part, material, set, function, define), `factors` are `fctmas`, `fcttim` and `fctlen`;
the code walks over them with a pointer. -/
structure IncludeTransform (α : Type) where
  fileName : Option Bytes
  offsets : List Int
  idroff : Int
  prefix_ : Option Bytes
  suffix : Option Bytes
  factors : List α
  fcttem : Option Bytes
  incout1 : Int
  tranid : Int
deriving DecidableEq, Repr

/-- The initial values (`/repo/src/include_transform.h:32-47`, `/repo/src/include_transform.c:35-52`). -/
def IncludeTransform.initial {α : Type} (A : Arith α) : IncludeTransform α :=
  ⟨none, [0, 0, 0, 0, 0, 0, 0], 0, none, none, [A.ofNat 1, A.ofNat 1, A.ofNat 1], none, 0, 0⟩

/-- `key_parse_include_transform_card` (`/repo/src/include_transform.c:66-133`). -/
def includeTransformCard {α : Type} (A : Arith α) (toInt : α → Res Int) (it : IncludeTransform α)
    (card : Card) (index : Nat) : Res (IncludeTransform α) :=
  match index with
  | 0 => do
    let name ← card.parseWhole
    .ok { it with fileName := some name }
  | 1 => do
    let (offsets, _) ← values (tryInt A toInt) it.offsets (card.begin valueWidth)
    .ok { it with offsets := offsets }
  | 2 => do
    let card := card.begin valueWidth
    if ← card.done then .ok it
    else
      let idroff ← tryInt A toInt card it.idroff
      let it := { it with idroff := idroff }
      let card ← card.next
      if ← card.done then .ok it
      else
        let card ← card.next
        if ← card.done then .ok it
        else
          let p ← card.parseString card.width
          let it := { it with prefix_ := some p }
          let card ← card.next
          if ← card.done then .ok it
          else
            let s ← card.parseString card.width
            .ok { it with suffix := some s }
  | 3 => do
    let (factors, card) ← values (tryFloat A) it.factors (card.begin valueWidth)
    let it := { it with factors := factors }
    if ← card.done then .ok it
    else
      let t ← card.parseString card.width
      let it := { it with fcttem := some t }
      let card ← card.next
      if ← card.done then .ok it
      else
        let v ← tryInt A toInt card it.incout1
        .ok { it with incout1 := v }
  | 4 => do
    let card := card.begin valueWidth
    if ← card.done then .ok it
    else
      let v ← tryInt A toInt card it.tranid
      .ok { it with tranid := v }
  | _ => .ok it

/-- The loop of `key_parse_include_transform` (`/repo/src/include_transform.c:54-60`) from card `i` on. -/
def includeTransformLoop {α : Type} (A : Arith α) (toInt : α → Res Int) :
    List Card → Nat → IncludeTransform α → Res (IncludeTransform α)
  | [], _, it => .ok it
  | card :: cards, i, it =>
    if i < 5 then do
      let it ← includeTransformCard A toInt it card i
      includeTransformLoop A toInt cards (i + 1) it
    else .ok it

/-- `key_parse_include_transform` (`/repo/src/include_transform.c:32-64`). -/
def includeTransform {α : Type} (A : Arith α) (toInt : α → Res Int) (cards : List Card) :
    Res (IncludeTransform α) :=
  includeTransformLoop A toInt cards 0 (IncludeTransform.initial A)

/-- `transformation_option_t` (`/repo/src/include_transform.h:99-103`); `parameters` has seven values. -/
structure Option_ (α : Type) where
  name : Bytes
  parameters : List α
deriving DecidableEq, Repr

/-- `define_transformation_t` (`/repo/src/include_transform.h:105-113`). -/
structure DefineTransformation (α : Type) where
  tranid : Int
  title : Option Bytes
  options : List (Option_ α)
deriving DecidableEq, Repr

/-- The option of a card (`/repo/src/include_transform.c:178-203`). -/
def optionCard {α : Type} (A : Arith α) (card : Card) : Res (Option_ α) := do
  let zeros := List.replicate 7 (A.ofNat 0)
  if ← card.done then .ok ⟨bs "NULL", zeros⟩
  else
    let name ← card.parseString card.width
    let card ← card.next
    let (parameters, _) ← values (tryFloat A) zeros card
    .ok ⟨name, parameters⟩

/-- `key_parse_define_transformation_card` (`/repo/src/include_transform.c:156-208`). -/
def defineTransformationCard {α : Type} (A : Arith α) (toInt : α → Res Int) (isTitle : Bool)
    (dt : DefineTransformation α) (card : Card) (index : Nat) : Res (DefineTransformation α) :=
  let card := card.begin valueWidth
  if index = 0 then
    if isTitle then do
      let t ← card.parseWhole
      .ok { dt with title := some t }
    else do
      let v ← tryInt A toInt card dt.tranid
      .ok { dt with tranid := v }
  else if index = 1 ∧ isTitle = true then do
    let v ← tryInt A toInt card dt.tranid
    .ok { dt with tranid := v }
  else do
    let o ← optionCard A card
    .ok { dt with options := dt.options ++ [o] }

/-- The loop of `key_parse_define_transformation` (`/repo/src/include_transform.c:145-150`). -/
def defineTransformationLoop {α : Type} (A : Arith α) (toInt : α → Res Int) (isTitle : Bool) :
    List Card → Nat → DefineTransformation α → Res (DefineTransformation α)
  | [], _, dt => .ok dt
  | card :: cards, i, dt => do
    let dt ← defineTransformationCard A toInt isTitle dt card i
    defineTransformationLoop A toInt isTitle cards (i + 1) dt

/-- `key_parse_define_transformation` (`/repo/src/include_transform.c:135-154`). -/
def defineTransformation {α : Type} (A : Arith α) (toInt : α → Res Int) (cards : List Card)
    (isTitle : Bool) : Res (DefineTransformation α) :=
  defineTransformationLoop A toInt isTitle cards 0 ⟨0, none, []⟩

end Dyna.Transform
