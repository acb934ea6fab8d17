import Verif.KeyFile
/-!
# Keywords of the C++ interface

Model of `Keywords::operator[]`, `KeywordSlice`, `Keyword` and their iterators
(`/repo/src/cpp/key.hpp:148-268`, `/repo/src/cpp/key.cpp:166-212`). A pointer to a keyword is an index into the list
of keywords, NULL is `none`. A pointer outside of the list (to a keyword that is visited) is undefined
behaviour.
-/

namespace Dyna

/-- The text of the exception is formatted into 1024 bytes (`/repo/src/cpp/key.hpp:44-49`, `/repo/src/cpp/key.cpp:206-209`). -/
def keywordNotFoundText (name : Bytes) : Bytes := bs "The keyword \"" ++ name ++ bs "\" could not be found"

/-- `Keywords::operator[]` (`/repo/src/cpp/key.cpp:202-212`): `none` is the exception, otherwise first keyword and size of the slice. -/
def keywordsSlice (names : List Bytes) (name : Bytes) : Res (Option (Nat × Nat)) := do
  match ← keyFileGetSlice names name with
  | none => if (keywordNotFoundText name).length + 1 > 1024 then .ub else .ok none
  | some s => .ok (some s)

/-- `KeywordSlice::Iterator` (`/repo/src/cpp/key.hpp:210-247`). -/
structure SliceIt where
  data : Option Nat
  left : Nat
deriving DecidableEq, Repr

/-- `KeywordSlice::begin` (`/repo/src/cpp/key.hpp:256`); `size_t` wraps around. -/
def sliceBegin (start size : Nat) : SliceIt := ⟨some start, (size + (u64 - 1)) % u64⟩

/-- `KeywordSlice::end` (`/repo/src/cpp/key.hpp:257`). -/
def sliceEnd : SliceIt := ⟨none, 0⟩

/-- `operator++` (`/repo/src/cpp/key.hpp:217-225`). -/
def SliceIt.next (it : SliceIt) : SliceIt :=
  if it.left = 0 then { it with data := none } else ⟨it.data.map (· + 1), it.left - 1⟩

/-- `for (auto kw : slice)` (`/repo/src/cpp/key.hpp:231-236`: compares the pointers): the keywords that are visited, of a list of `n`. -/
def visitSlice (n : Nat) : (fuel : Nat) → SliceIt → Res (List Nat)
  | 0, _ => .abort
  | fuel + 1, it =>
    if it.data = sliceEnd.data then .ok []
    else match it.data with
      | none => .ub
      | some i => if i < n then do
          let r ← visitSlice n fuel it.next
          .ok (i :: r)
        else .ub

/-- `KeywordSlice::operator[]` (`/repo/src/cpp/key.cpp:179-185`): `none` is the exception. -/
def sliceIndex (start size i : Nat) : Option Nat :=
  if size = 0 ∨ i > size - 1 then none else some (start + i)

/-- `Keyword::operator[]` (`/repo/src/cpp/key.cpp:168-174`): the index of the card, `none` is the exception. -/
def cardIndex (numCards i : Nat) : Option Nat :=
  if numCards = 0 ∨ i > numCards - 1 then none else some i

/-- `for (auto card : keyword)` (`/repo/src/cpp/key.hpp:155-199`): the cards that are visited. -/
def visitCards (numCards : Nat) : (fuel : Nat) → Nat → Res (List Nat)
  | 0, _ => .abort
  | fuel + 1, i =>
    if i = numCards then .ok []
    else if i < numCards then do
      let r ← visitCards numCards fuel (i + 1)
      .ok (i :: r)
    else .ub

end Dyna
