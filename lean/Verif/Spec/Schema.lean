import Verif.Model.Schema

/-!
# What the name patterns of a schema are
-/

namespace Punx.Spec

/-- The texts of the patterns of a restriction, in order. -/
def ownPatterns (fs : List Facet) : List Str :=
  fs.filterMap fun f => match f with
    | .pattern v => v
    | _ => none

/-- `WithoutPrefix ref w`: `w` is what follows the last colon of `ref`. -/
def WithoutPrefix (ref w : Str) : Prop :=
  ':' ∉ w ∧ (ref = w ∨ ∃ p, ref = p ++ ':' :: w)

/-- `DeclaresType ts k base own n`: the last simple type called `k` restricts `base`, has
the patterns `own`, and `n` is its last `maxLength` (`none`: it has none). -/
def DeclaresType (ts : List SimpleType) (k base : Str) (own : List Str) (n : Option Str) : Prop :=
  ∃ pre t post r b, ts = pre ++ t :: post ∧ t.name = some k ∧
    (∀ u ∈ post, u.name ≠ some k) ∧ t.restrictions = [r] ∧ r.base = some b ∧
    WithoutPrefix b base ∧ own = ownPatterns r.facets ∧
    n = (r.facets.filterMap fun f => match f with
      | .maxLength v => v
      | _ => none).getLast?

/-- A simple type whose patterns are read: `valid…`. -/
def IsNameType (t : SimpleType) (k : Str) : Prop := t.name = some k ∧ s%"valid" <+: k

/-- The schema can be read: all types have names, and those of the names have one
restriction with a base, whose patterns have values and whose lengths are numbers. -/
def ReadableTypes (int : Str → Option Int) (ts : List SimpleType) : Prop :=
  (∀ t ∈ ts, t.name.isSome) ∧
    ∀ t ∈ ts, ∀ k, IsNameType t k → ∃ r, t.restrictions = [r] ∧ r.base.isSome ∧
      ∀ f ∈ r.facets, f ≠ .pattern none ∧ f ≠ .maxLength none ∧
        ∀ v, f = .maxLength (some v) → (int v).isSome

/-- The type `k` restricts the type `b` of the same schema. -/
def Restricts (db : Dict Str SchemaPattern) (k b : Str) : Prop :=
  ∃ v, Dict.get? db k = some v ∧ v.base = b ∧ b ≠ s%"token" ∧ b ∈ Dict.keys db

/-- `a` stands before `b`. -/
def StandsBefore (l : List Str) (a b : Str) : Prop :=
  ∃ pre mid post, l = pre ++ a :: mid ++ b :: post

/-- All patterns along the chain of restrictions, own ones first, and where it ends. -/
inductive Chain (db : Dict Str SchemaPattern) : Str → List Str → Str → Int → Prop
  | ground {k v} : Dict.get? db k = some v → (v.base = s%"token" ∨ v.base ∉ Dict.keys db) →
      Chain db k v.reList v.base v.maxLength
  | step {k v l b n} : Dict.get? db k = some v → v.base ≠ s%"token" → Chain db v.base l b n →
      Chain db k (v.reList ++ l) b n

end Punx.Spec
