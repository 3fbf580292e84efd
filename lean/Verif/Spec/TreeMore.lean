import Verif.Spec.Showable

/-!
# Files with additional content
-/

namespace Punx.Spec

/-- Additional attributes; class and target are the same. -/
structure MoreAttrs (a a' : List (Str × Val)) : Prop where
  more : a.Sublist a'
  cls : a.lookup s%"NX_class" = a'.lookup s%"NX_class"
  target : a.lookup s%"target" = a'.lookup s%"target"

mutual
/-- The second object has additional attributes and members, at all levels. -/
inductive HasMore : Node → Node → Prop
  | dataset {o : Str} {a a' : List (Str × Val)} {d : DataInfo} : MoreAttrs a a' →
      HasMore (.dataset o a d) (.dataset o a' d)
  | datatype {o : Str} {a a' : List (Str × Val)} : MoreAttrs a a' →
      HasMore (.datatype o a) (.datatype o a')
  | group {o : Str} {a a' : List (Str × Val)} {k k' : Kids} : MoreAttrs a a' → HasMoreKids k k' →
      HasMore (.group o a k) (.group o a' k')
/-- There are additional members, or members with additional content. -/
inductive HasMoreKids : Kids → Kids → Prop
  | nil : HasMoreKids .nil .nil
  | cons {l : Str} {k : LinkKind} {n n' : Node} {r r' : Kids} : HasMore n n' → HasMoreKids r r' →
      HasMoreKids (.cons l k n r) (.cons l k n' r')
  | broken {l : Str} {k : LinkKind} {r r' : Kids} : HasMoreKids r r' →
      HasMoreKids (.broken l k r) (.broken l k r')
  | extra {l : Str} {k : LinkKind} {n : Node} {r r' : Kids} : HasMoreKids r r' →
      HasMoreKids r (.cons l k n r')
  | extraBroken {l : Str} {k : LinkKind} {r r' : Kids} : HasMoreKids r r' →
      HasMoreKids r (.broken l k r')
end

end Punx.Spec
