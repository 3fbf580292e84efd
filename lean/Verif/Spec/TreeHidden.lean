import Verif.Spec.Showable

/-!
# Files that differ only behind links
-/

namespace Punx.Spec

mutual
/-- Objects at the same place that differ only behind links. -/
inductive ShownAlike (env : Env) : Node → Node → Prop
  /-- Both are NeXus links with the same target. -/
  | linked {n n' : Node} : n.name = n'.name →
      n.attrs.lookup s%"target" = n'.attrs.lookup s%"target" → NexusLink env n.attrs n.name →
      ShownAlike env n n'
  | dataset {o : Str} {a : List (Str × Val)} {d : DataInfo} : ShownAlike env (.dataset o a d) (.dataset o a d)
  | datatype {o : Str} {a : List (Str × Val)} : ShownAlike env (.datatype o a) (.datatype o a)
  | group {o : Str} {a : List (Str × Val)} {k k' : Kids} : ShownAlikeKids env k k' →
      ShownAlike env (.group o a k) (.group o a k')
/-- Members of groups that differ only behind links.  What a soft link or a link to a missing file
leads to, or whether it leads to anything, is free. -/
inductive ShownAlikeKids (env : Env) : Kids → Kids → Prop
  | nil : ShownAlikeKids env .nil .nil
  | shown {l : Str} {k : LinkKind} {n n' : Node} {r r' : Kids} : ShownAlike env n n' →
      ShownAlikeKids env r r' → ShownAlikeKids env (.cons l k n r) (.cons l k n' r')
  | other {l : Str} {k : LinkKind} {n n' : Node} {r r' : Kids} : ¬ ShownBehind k →
      ShownAlikeKids env r r' → ShownAlikeKids env (.cons l k n r) (.cons l k n' r')
  | gone {l : Str} {k : LinkKind} {n : Node} {r r' : Kids} : ¬ ShownBehind k →
      ShownAlikeKids env r r' → ShownAlikeKids env (.cons l k n r) (.broken l k r')
  | back {l : Str} {k : LinkKind} {n' : Node} {r r' : Kids} : ¬ ShownBehind k →
      ShownAlikeKids env r r' → ShownAlikeKids env (.broken l k r) (.cons l k n' r')
  | broken {l : Str} {k : LinkKind} {r r' : Kids} :
      ShownAlikeKids env r r' → ShownAlikeKids env (.broken l k r) (.broken l k r')
end

end Punx.Spec
