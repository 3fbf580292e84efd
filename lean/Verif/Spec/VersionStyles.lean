import Verif.Spec.Version

/-!
# The styles of version texts

The templates of the documentation of `punx/_version.py` (`TAG[+DISTANCE.gHEX[.dirty]]` and so on),
part by part.
-/

namespace Punx.Spec
open Punx

/-- When a part is written: always, if there are commits after the tag, if there are changes that are
not committed, if there are either. -/
inductive When
  | always | ahead | changed | moved

/-- The parts of a version text. -/
inductive Piece
  | lit (s : Str) | tag | plus | distance | hex

/-- Whether a part is written for a commit. -/
def When.holds (c : Commit) : When → Bool
  | .always => true
  | .ahead => decide (0 < c.distance)
  | .changed => c.dirty
  | .moved => decide (0 < c.distance) || c.dirty

/-- The text of a part.  A second plus sign is written as a dot. -/
def Piece.text (c : Commit) : Piece → Str
  | .lit s => s
  | .tag => c.tag.getD []
  | .plus => if '+' ∈ c.tag.getD [] then s%"." else s%"+"
  | .distance => natStr c.distance
  | .hex => c.hex

/-- A template filled for a commit. -/
def fill (c : Commit) (t : List (When × Piece)) : Str :=
  (t.filter fun x => x.1.holds c).flatMap fun x => x.2.text c

/-- The templates of a style, for commits with and without a tag. -/
structure Style where
  tagged : List (When × Piece)
  untagged : List (When × Piece)

/-- The documented styles. -/
def documentedStyles : List (Str × Style) := [
  (s%"pep440",              -- TAG[+DISTANCE.gHEX[.dirty]]; 0+untagged.DISTANCE.gHEX[.dirty]
    ⟨[(.always, .tag), (.moved, .plus), (.moved, .distance), (.moved, .lit s%".g"), (.moved, .hex),
      (.changed, .lit s%".dirty")],
     [(.always, .lit s%"0+untagged."), (.always, .distance), (.always, .lit s%".g"), (.always, .hex),
      (.changed, .lit s%".dirty")]⟩),
  (s%"pep440-pre",          -- TAG[.post.devDISTANCE]; 0.post.devDISTANCE
    ⟨[(.always, .tag), (.ahead, .lit s%".post.dev"), (.ahead, .distance)],
     [(.always, .lit s%"0.post.dev"), (.always, .distance)]⟩),
  (s%"pep440-post",         -- TAG[.postDISTANCE[.dev0]+gHEX]; 0.postDISTANCE[.dev0]+gHEX
    ⟨[(.always, .tag), (.moved, .lit s%".post"), (.moved, .distance), (.changed, .lit s%".dev0"),
      (.moved, .plus), (.moved, .lit s%"g"), (.moved, .hex)],
     [(.always, .lit s%"0.post"), (.always, .distance), (.changed, .lit s%".dev0"),
      (.always, .lit s%"+g"), (.always, .hex)]⟩),
  (s%"pep440-old",          -- TAG[.postDISTANCE[.dev0]]; 0.postDISTANCE[.dev0]
    ⟨[(.always, .tag), (.moved, .lit s%".post"), (.moved, .distance), (.changed, .lit s%".dev0")],
     [(.always, .lit s%"0.post"), (.always, .distance), (.changed, .lit s%".dev0")]⟩),
  (s%"git-describe",        -- TAG[-DISTANCE-gHEX][-dirty]; HEX[-dirty]
    ⟨[(.always, .tag), (.ahead, .lit s%"-"), (.ahead, .distance), (.ahead, .lit s%"-g"), (.ahead, .hex),
      (.changed, .lit s%"-dirty")],
     [(.always, .hex), (.changed, .lit s%"-dirty")]⟩),
  (s%"git-describe-long",   -- TAG-DISTANCE-gHEX[-dirty]; HEX[-dirty]
    ⟨[(.always, .tag), (.always, .lit s%"-"), (.always, .distance), (.always, .lit s%"-g"),
      (.always, .hex), (.changed, .lit s%"-dirty")],
     [(.always, .hex), (.changed, .lit s%"-dirty")]⟩)]

/-- The template that a style has for a commit. -/
def Style.forCommit (s : Style) (c : Commit) : List (When × Piece) :=
  if c.tag.isSome then s.tagged else s.untagged

end Punx.Spec
