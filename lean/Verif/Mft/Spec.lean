import Verif.Mft.Model
import Verif.Mft.SpecTime
import Verif.Cms.Spec
/-
What a manifest vouches for.
-/
namespace Verif.Mft
open Verif.Res (Byte be)

/-- The file is there, with the listed hash. -/
def Matches (env : Env) (f : FileAndHash) (u : Uri) : Prop :=
  env.mkUri f.file = some u ∧ f.unused = 0 ∧ ∃ b, env.read u = .content b ∧ f.hash = env.sha256 b

/-- The file is there, with another hash, but this is tolerated. -/
def Tolerated (env : Env) (f : FileAndHash) (u : Uri) : Prop :=
  env.mkUri f.file = some u ∧ f.unused = 0 ∧ (∃ b, env.read u = .content b) ∧ env.mismatch ≠ .error

/-- The file isn't there, but this is tolerated. -/
def Absent (env : Env) (f : FileAndHash) : Prop :=
  ∃ u, env.mkUri f.file = some u ∧ f.unused = 0 ∧ env.read u = .missing ∧ env.notFound ≠ .error

/-- The URIs of the listed files that are there. -/
inductive Usable (env : Env) : List FileAndHash → List Uri → Prop where
  | nil : Usable env [] []
  | take {f fs u us} : Matches env f u ∨ Tolerated env f u → Usable env fs us → Usable env (f :: fs) (u :: us)
  | skip {f fs us} : Absent env f → Usable env fs us → Usable env (f :: fs) us

/-- The string has this extension. -/
def HasExt (ext : List Byte) (u : Uri) : Prop := ext <:+ u

instance (ext u : List Byte) : Decidable (HasExt ext u) := by unfold HasExt; infer_instance

/-- The publication point consists of these files, with one CRL. -/
structure Holds (pp : Rpp) (us : List Uri) : Prop where
  certs : pp.certs = us.filter (HasExt extCer ·)
  roas : pp.roas = us.filter (HasExt extRoa ·)
  gbrs : pp.gbrs = us.filter (HasExt extGbr ·)
  crl : ∃ c, pp.crl = some c ∧ us.filter (HasExt extCrl ·) = [c]

end Verif.Mft
