import Verif.Slurm.SpecParser
import Mathlib.Data.List.Forall2
/-
Specification of SLURM files and of sets of SLURM files (RFC 8416, sections 3.2 and 4.2).
-/
namespace Verif.Slurm
open Verif.Res (Byte)
open Verif.Rtr (Fam)

/-- The root object has exactly the three members of RFC 8416, section 3.2, each with exactly its two members, and the
elements of the four arrays are the rules of `L`, in the same order. -/
structure FileOf (env : Env) (root : List (String × Json)) (L : Lists) : Prop where
  version : root.lookup "slurmVersion" = some (.int 1)
  filters : ∃ o ps bs, root.lookup "validationOutputFilters" = some (.obj o) ∧ o.length = 2 ∧
    o.lookup "prefixFilters" = some (.arr ps) ∧ o.lookup "bgpsecFilters" = some (.arr bs) ∧
    List.Forall₂ (fun j r => parsePrefix env j false = .ok r) ps L.filterPfx ∧
    List.Forall₂ (fun j r => parseBgpsec env j false = .ok r) bs L.filterBgps
  assertions : ∃ o ps bs, root.lookup "locallyAddedAssertions" = some (.obj o) ∧ o.length = 2 ∧
    o.lookup "prefixAssertions" = some (.arr ps) ∧ o.lookup "bgpsecAssertions" = some (.arr bs) ∧
    List.Forall₂ (fun j r => parsePrefix env j true = .ok r) ps L.assertPfx ∧
    List.Forall₂ (fun j r => parseBgpsec env j true = .ok r) bs L.assertBgps
  size : root.length = 3

/-- The file is a JSON object that denotes these rules. -/
def DocOf (env : Env) (f : Option Json) (L : Lists) : Prop := ∃ root, f = some (.obj root) ∧ FileOf env root L

/-- The rules of both. -/
def Lists.append (a b : Lists) : Lists :=
  ⟨a.filterPfx ++ b.filterPfx, a.assertPfx ++ b.assertPfx, a.filterBgps ++ b.filterBgps, a.assertBgps ++ b.assertBgps⟩

/-- The rules of all the files. -/
def Lists.concat (ls : List Lists) : Lists := ls.foldr Lists.append Lists.empty

/-- RFC 8416, section 4.2: no address is in a prefix of both files, and no AS number is in a BGPsec rule of both. -/
def NoConflict (a b : Lists) : Prop :=
  (∀ r ∈ a.filterPfx ++ a.assertPfx, ∀ s ∈ b.filterPfx ++ b.assertPfx, ∀ p q,
    r.pfx? = some p → s.pfx? = some q → ¬ p.Overlap q) ∧
  (∀ r ∈ a.filterBgps ++ a.assertBgps, ∀ s ∈ b.filterBgps ++ b.assertBgps, ∀ x,
    ¬ (r.asn? = some x ∧ s.asn? = some x))

/-- The rules the files of a directory stand for: every file is a SLURM file, no two conflict. -/
def DirOf (env : Env) (files : List (Option Json)) (L : Lists) : Prop :=
  ∃ Ls, List.Forall₂ (DocOf env) files Ls ∧ Ls.Pairwise NoConflict ∧ L = Lists.concat Ls

/-- What the user is promised, as a function of the cycles so far, last one first: the rules in force. A cycle whose
files cannot be hashed or read, or are not good SLURM files, changes nothing; one without files or without rules ends
the SLURM. -/
inductive InForce (env : Env) : List CycleIn → Option Lists → Prop
  | start : InForce env [] none
  | unreadable {h i x} : InForce env h x → (none ∈ i.csums.files ∨ i.csums.readOk = false) → InForce env (i :: h) x
  | noFiles {h i x} : InForce env h x → i.csums.files = [] → i.csums.readOk = true → InForce env (i :: h) none
  | bad {h i x} : InForce env h x → none ∉ i.csums.files → i.csums.readOk = true → i.csums.files ≠ [] →
      (i.docs.readOk = false ∨ ¬ ∃ L, DirOf env i.docs.files L) → InForce env (i :: h) x
  | noRules {h i x} : InForce env h x → none ∉ i.csums.files → i.csums.readOk = true → i.csums.files ≠ [] →
      i.docs.readOk = true → DirOf env i.docs.files Lists.empty → InForce env (i :: h) none
  | loaded {h i x L} : InForce env h x → none ∉ i.csums.files → i.csums.readOk = true → i.csums.files ≠ [] →
      i.docs.readOk = true → DirOf env i.docs.files L → L ≠ Lists.empty → InForce env (i :: h) (some L)

/-- The two hold the same rules, perhaps in another order. -/
def Lists.Same (a b : Lists) : Prop :=
  (∀ r, r ∈ a.filterPfx ↔ r ∈ b.filterPfx) ∧ (∀ r, r ∈ a.assertPfx ↔ r ∈ b.assertPfx) ∧
  (∀ r, r ∈ a.filterBgps ↔ r ∈ b.filterBgps) ∧ (∀ r, r ∈ a.assertBgps ↔ r ∈ b.assertBgps)

/-- The checksums tell the contents: no collisions, no two equal files in a directory, and no file changes between
the pass that computes the checksums and the one that reads the files (which may visit them in another order). -/
def Faithful (content : List Byte → Option Json) (i : CycleIn) : Prop :=
  ∀ cs : List (List Byte), i.csums.files = cs.map some → cs.Nodup ∧ (cs.map content).Perm i.docs.files

end Verif.Slurm
