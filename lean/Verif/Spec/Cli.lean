import Verif.Model.Finding
import Mathlib.Data.List.Forall2
import Verif.Model.H5Tree

/-!
# Specification vocabulary for the command line
-/

namespace Punx.Spec

/-- A name of capital letters, written in any case. -/
def SameName (w key : Str) : Prop :=
  List.Forall₂ (fun c k => c = k ∨ (65 ≤ k.toNat ∧ k.toNat ≤ 90 ∧ c.toNat = k.toNat + 32)) w key

/-- Words with a separator between them. -/
def between (sep : Char) : List Str → Str
  | [] => []
  | [w] => w
  | w :: ws => w ++ sep :: between sep ws

/-- The option lists these words. -/
def Lists (option : Str) (ws : List Str) : Prop :=
  ws ≠ [] ∧ (∀ w ∈ ws, ',' ∉ w) ∧ option = between ',' ws

/-- The option asks for this status. -/
def Asked (option : Str) (st : Status) : Prop := ∃ ws, Lists option ws ∧ ∃ w ∈ ws, SameName w st.key

/-- The option has only names of statuses. -/
def AllKnown (option : Str) : Prop :=
  ∃ ws, Lists option ws ∧ ∀ w ∈ ws, ∃ st : Status, SameName w st.key

/-- Only ASCII characters. -/
def PlainAscii (s : Str) : Prop := ∀ c ∈ s, c.toNat < 128

/-- An abbreviation of exactly one of the names. -/
def Abbreviates (names : List Str) (w c : Str) : Prop :=
  c ∈ names ∧ w <+: c ∧ ∀ c' ∈ names, w <+: c' → c' = c

end Punx.Spec
