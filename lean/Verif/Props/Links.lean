import Verif.Spec.Links
import Verif.Props.Data2
import Verif.Props.H5Tree

/-!
# C125: how the objects are linked does not matter for validation
-/

namespace Punx
open Spec

mutual
theorem relinked_like {K : Str → Prop} {l : Str} {n n' : Node} : Relinked n n' → LikeNode K l n n'
  | .dataset _ _ _ => .dataset fun _ => rfl
  | .datatype _ _ => .datatype
  | .group _ _ h => .group (relinkedKids_like h)
theorem relinkedKids_like {K : Str → Prop} {ks ks' : Kids} : RelinkedKids ks ks' → LikeKids K ks ks'
  | .nil => .nil
  | .cons _ _ _ h t => .cons (relinked_like h) (relinkedKids_like t)
  | .broken _ _ _ t => .broken (relinkedKids_like t)
end

theorem otherLinks_like {K : Str → Prop} {f f' : H5File} (h : OtherLinks f f') : OtherData K f f' :=
  ⟨h.attrs, relinkedKids_like h.kids⟩

/-- **C125**: if two files differ in the kinds of links only (hard, soft, external, and where a link
says that its object is), the validation does the same for both, finding by finding and with the same
comments, and ends in the same way. -/
theorem links_irrelevant (env : Env) (mgr : Manager) (mins : Dict (Str × Str) Int) {f f' : H5File}
    (h : OtherLinks f f') : validateOpen env mgr mins f = validateOpen env mgr mins f' :=
  data_irrelevant env mgr mins (otherLinks_like h)

/-- **C125**: `punx validate` does and prints the same for both files. -/
theorem links_irrelevant_command {w w' : World} (a : ValidateArgs) (hs : w.sets = w'.sets)
    (he : w.env = w'.env) (hu : w.upper = w'.upper) (hl : w.load = w'.load) {f f' : H5File}
    (hf : w.files a.infile = .hdf5 f) (hf' : w'.files a.infile = .hdf5 f') (h : OtherLinks f f') :
    funcValidate w a = funcValidate w' a :=
  data_irrelevant_command a hs he hu hl hf hf' fun _ _ _ _ => otherLinks_like h

/-! ## the tree report -/

/-- A file with one dataset, linked in this way. -/
def fileOfLink (k : LinkKind) : H5File :=
  ⟨[], .cons s%"x" k (.dataset s%"/x" [] (DataInfo.ofVal (.int 1))) .nil⟩

theorem fileOfLink_otherLinks (k k' : LinkKind) : OtherLinks (fileOfLink k) (fileOfLink k') :=
  ⟨rfl, .cons _ _ _ (.dataset _ _ _) .nil⟩

/-- In contrast, the tree report shows how objects are linked. -/
theorem links_shown : ∃ f f', OtherLinks f f' ∧
    treeReport sampleEnv 5 true s%"a.h5" (.hdf5 f) ≠ treeReport sampleEnv 5 true s%"a.h5" (.hdf5 f') :=
  ⟨_, _, fileOfLink_otherLinks .hard (.soft s%"/y"), by decide +kernel⟩

/-- Beside a link of another kind there are groups and attributes. -/
example : OtherLinks
    ⟨[], .cons s%"e" .hard (.group s%"/e" [(s%"NX_class", .str s%"NXentry")]
      (.cons s%"x" .hard (.dataset s%"/e/x" [] (DataInfo.ofVal (.int 1))) .nil)) .nil⟩
    ⟨[], .cons s%"e" .hard (.group s%"/e" [(s%"NX_class", .str s%"NXentry")]
      (.cons s%"x" (.external s%"b.h5" s%"/e/x" true)
        (.dataset s%"/e/x" [] (DataInfo.ofVal (.int 1))) .nil)) .nil⟩ :=
  ⟨rfl, .cons _ _ _ (.group _ _ (.cons _ _ _ (.dataset _ _ _) .nil)) .nil⟩

end Punx
