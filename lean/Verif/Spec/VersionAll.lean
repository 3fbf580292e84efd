import Verif.Spec.Version

/-!
# Everything that can come of asking `git` for the version (claim C97)
-/

namespace Punx.Spec

/-- `int(text)` does not mind white space around the text. -/
def IgnoresSpace (env : VEnv) : Prop :=
  ∀ a s b : Str, (∀ c ∈ a, isPySpace c = true) → (∀ c ∈ b, isPySpace c = true) →
    env.int (a ++ s ++ b) = env.int s

/-- `git` with these arguments ends well and writes this text, perhaps with white space around
it. -/
def GitWrites (w : VWorld) (root : Str) (args : List Str) (s : Str) : Prop :=
  ∃ a b, GitSays w root args (a ++ s ++ b) ∧ (∀ c ∈ a, isPySpace c = true) ∧
    (∀ c ∈ b, isPySpace c = true) ∧ Trimmed s

/-- `git` knows the directory, describes the tree and names the commit. -/
structure KnownTree (w : VWorld) (root describe head : Str) : Prop where
  dir : ∃ out, GitSays w root askDir out
  describe : GitWrites w root (askDescribe []) describe
  head : GitWrites w root askHead head

/-- A description is a text, followed by the mark exactly if the tree is changed. -/
def Marked (describe text : Str) (dirty : Bool) : Prop :=
  describe = text ++ mark dirty s%"-dirty" ∧ (dirty = false → ¬ s%"-dirty" <:+ describe)

/-- A text that names a tag, a number of commits and a commit.  It may have a line feed at its
end. -/
def NamesTag (env : VEnv) (text tag num hex : Str) : Prop :=
  (text = tag ++ s%"-" ++ num ++ s%"-g" ++ hex ∨
    text = tag ++ s%"-" ++ num ++ s%"-g" ++ hex ++ s%"\n") ∧
  tag ≠ [] ∧ '\n' ∉ tag ∧ num ≠ [] ∧ (∀ c ∈ num, env.digit c = true) ∧ IsHex hex

/-- The version after a tag. -/
def versionAfter (tag : Str) (n : Int) (hex : Str) (dirty : Bool) : Str :=
  if n = 0 ∧ dirty = false then tag
  else tag ++ (if '+' ∈ tag then s%"." else s%"+") ++ intStr n ++ s%".g" ++ hex ++
    mark dirty s%".dirty"

/-- The version without a tag. -/
def versionUntagged (n : Int) (head : Str) (dirty : Bool) : Str :=
  s%"0+untagged." ++ intStr n ++ s%".g" ++ head.take 7 ++ mark dirty s%".dirty"

/-- What comes of asking `git`: a version, an exception, or that another method must be used. -/
inductive VersionAnswer (env : VEnv) (w : VWorld) (root : Str) : Except VErr VersionInfo → Prop
  /-- No directory of `git`. -/
  | outside : GitFails w root askDir → VersionAnswer env w root (.error .notThisMethod)
  | noDescription {out : Str} : GitSays w root askDir out → GitFails w root (askDescribe []) →
      VersionAnswer env w root (.error .notThisMethod)
  | noCommit {out out' : Str} : GitSays w root askDir out → GitSays w root (askDescribe []) out' →
      GitFails w root askHead → VersionAnswer env w root (.error .notThisMethod)
  | garbledDir : GitGarbled w root askDir → VersionAnswer env w root (.error (.py .unicodeDecodeError))
  | garbledDescription {out : Str} : GitSays w root askDir out →
      GitGarbled w root (askDescribe []) → VersionAnswer env w root (.error (.py .unicodeDecodeError))
  | garbledCommit {out out' : Str} : GitSays w root askDir out →
      GitSays w root (askDescribe []) out' → GitGarbled w root askHead →
      VersionAnswer env w root (.error (.py .unicodeDecodeError))
  /-- The description has a hyphen but does not name a tag. -/
  | unreadable {describe head text : Str} {dirty : Bool} : KnownTree w root describe head →
      Marked describe text dirty → '-' ∈ text → (∀ tag num hex, ¬ NamesTag env text tag num hex) →
      VersionAnswer env w root (.ok ⟨s%"unknown", some head, none,
        some (s%"unable to parse git-describe output: '" ++ describe ++ s%"'"), none⟩)
  | tag {describe head text tag num hex date : Str} {dirty : Bool} {n : Int} :
      KnownTree w root describe head → Marked describe text dirty → NamesTag env text tag num hex →
      env.int num = some n → GitWrites w root askDate date →
      VersionAnswer env w root (.ok ⟨versionAfter tag n hex dirty, some head, some dirty, none,
        some (fixDate date)⟩)
  | tagNumber {describe head text tag num hex : Str} {dirty : Bool} :
      KnownTree w root describe head → Marked describe text dirty → NamesTag env text tag num hex →
      env.int num = none → VersionAnswer env w root (.error (.py .valueError))
  | tagDate {describe head text tag num hex : Str} {dirty : Bool} {n : Int} :
      KnownTree w root describe head → Marked describe text dirty → NamesTag env text tag num hex →
      env.int num = some n → GitFails w root askDate →
      VersionAnswer env w root (.error (.py .attributeError))
  | tagDateGarbled {describe head text tag num hex : Str} {dirty : Bool} {n : Int} :
      KnownTree w root describe head → Marked describe text dirty → NamesTag env text tag num hex →
      env.int num = some n → GitGarbled w root askDate →
      VersionAnswer env w root (.error (.py .unicodeDecodeError))
  | noTag {describe head text count date : Str} {dirty : Bool} {n : Int} :
      KnownTree w root describe head → Marked describe text dirty → '-' ∉ text →
      GitWrites w root askCount count → env.int count = some n → GitWrites w root askDate date →
      VersionAnswer env w root (.ok ⟨versionUntagged n head dirty, some head, some dirty, none,
        some (fixDate date)⟩)
  | noTagCount {describe head text : Str} {dirty : Bool} :
      KnownTree w root describe head → Marked describe text dirty → '-' ∉ text →
      GitFails w root askCount → VersionAnswer env w root (.error (.py .typeError))
  | noTagCountGarbled {describe head text : Str} {dirty : Bool} :
      KnownTree w root describe head → Marked describe text dirty → '-' ∉ text →
      GitGarbled w root askCount → VersionAnswer env w root (.error (.py .unicodeDecodeError))
  | noTagNumber {describe head text count : Str} {dirty : Bool} :
      KnownTree w root describe head → Marked describe text dirty → '-' ∉ text →
      GitWrites w root askCount count → env.int count = none →
      VersionAnswer env w root (.error (.py .valueError))
  | noTagDate {describe head text count : Str} {dirty : Bool} {n : Int} :
      KnownTree w root describe head → Marked describe text dirty → '-' ∉ text →
      GitWrites w root askCount count → env.int count = some n → GitFails w root askDate →
      VersionAnswer env w root (.error (.py .attributeError))
  | noTagDateGarbled {describe head text count : Str} {dirty : Bool} {n : Int} :
      KnownTree w root describe head → Marked describe text dirty → '-' ∉ text →
      GitWrites w root askCount count → env.int count = some n → GitGarbled w root askDate →
      VersionAnswer env w root (.error (.py .unicodeDecodeError))

/-- The version in the name of the directory or of one of the two above it, the nearest first; else
it is unknown. -/
def DirectoryVersion (names : List Str) (i : VersionInfo) : Prop :=
  (∃ above below v, names = above ++ (s%"punx-" ++ v) :: below ∧ below.length < 3 ∧
    (∀ x ∈ below, ¬ s%"punx-" <+: x) ∧ i = ⟨v, none, some false, none, none⟩) ∨
  ((∀ above x below, names = above ++ x :: below → below.length < 3 → ¬ s%"punx-" <+: x) ∧
    i = ⟨s%"0+unknown", none, none, some s%"unable to compute version", none⟩)

end Punx.Spec
