import Verif.Spec.Expected

/-!
# Attributes that are notes

Attributes with names that neither punx nor NeXus gives a meaning for other parts of the file: a
file with them and the same file without them.
-/

namespace Punx.Spec

mutual
/-- The object without the attributes whose names are in `N`, also further below. -/
def withoutNode (N : Str → Bool) : Node → Node
  | .dataset n a d => .dataset n (a.filter fun ka => !N ka.1) d
  | .datatype n a => .datatype n (a.filter fun ka => !N ka.1)
  | .group n a ks => .group n (a.filter fun ka => !N ka.1) (withoutKids N ks)
/-- The same for members. -/
def withoutKids (N : Str → Bool) : Kids → Kids
  | .nil => .nil
  | .cons l k n r => .cons l k (withoutNode N n) (withoutKids N r)
  | .broken l k r => .broken l k (withoutKids N r)
end

/-- The file without the attributes whose names are in `N`. -/
def without (N : Str → Bool) (f : H5File) : H5File :=
  ⟨f.attrs.filter fun ka => !N ka.1, withoutKids N f.kids⟩

/-- The name of an attribute without a meaning for anything else. -/
def IsNote (k : Str) : Prop :=
  '@' ∉ k ∧ k ∉ [s%"NX_class", s%"target", s%"signal", s%"axes", s%"default"]

/-- The NeXus group `g` of the file has the class path `cp` and the definition `d`, and the attribute
`k` with the value `v`. -/
def GroupAttr (env : Env) (mgr : Manager) (items : List Item) (g : Node) (d : ClassDef) (k : Str)
    (v : Val) : Prop :=
  ∃ it ∈ items, it.obj.asGroup = some g ∧ it.classpath ≠ s%"non-NeXus content" ∧
    ∃ c, GroupClass env it.classpath g.attrs c ∧ Dict.get? mgr.classes c = some d ∧
      (k, v) ∈ g.attrs

/-- The lines on the attributes whose names are in `N`: on the name, on the value, and, for groups,
what the definition says about the attribute. -/
inductive NoteLine (env : Env) (mgr : Manager) (N : Str → Bool) (items : List Item) : Line → Prop
  | name {o : Item} {a k : Str} {v : Val} {st : Status} : CarriesAttr items o a k v →
      N k = true → ¬ Linked env o → AttrNameRule env.word mgr k st →
      NoteLine env mgr N items (some (a ++ '@' :: k), s%"validItemName", st)
  | value {o : Item} {a k : Str} {v : Val} : CarriesAttr items o a k v → N k = true →
      NoteLine env mgr N items (some (a ++ '@' :: k), s%"attribute value", .todo)
  | known {g : Node} {d : ClassDef} {k : Str} {v : Val} : GroupAttr env mgr items g d k v →
      N k = true →
      NoteLine env mgr N items (some (g.name ++ '@' :: k), s%"known attribute", .ok)
  | enumeration {g : Node} {d : ClassDef} {k : Str} {v : Val} {spec : AttrSpec} :
      GroupAttr env mgr items g d k v → N k = true → Dict.get? d.attrs k = some spec →
      spec.enums ≠ [] →
      NoteLine env mgr N items (some (g.name ++ '@' :: k), s%"attribute value enumeration",
        okIf (Enumerated env spec.enums v) .error)
  | todo {g : Node} {d : ClassDef} {k : Str} {v : Val} {spec : AttrSpec} :
      GroupAttr env mgr items g d k v → N k = true → Dict.get? d.attrs k = some spec →
      NoteLine env mgr N items (some (g.name ++ '@' :: k), s%"value of @" ++ k, .todo)

/-- The attributes whose names are in `N` can be read: those of groups can be decoded, and are text
if their values are enumerated. -/
def NotesReadable (env : Env) (mgr : Manager) (N : Str → Bool) (items : List Item) : Prop :=
  ∀ g d k v, GroupAttr env mgr items g d k v → N k = true →
    classReadable env (some v) ∧
    ∀ spec, Dict.get? d.attrs k = some spec → spec.enums ≠ [] → ∃ s, TextOf env v s

end Punx.Spec
