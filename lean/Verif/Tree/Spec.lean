import Verif.Tree.Model
/-
What a traversal should do: a recursive walk, depth first, without stacks or pointers.
-/
namespace Verif.Tree
variable {σ U X C R S : Type}

/-- A certificate that was accepted: itself, where it is, its resources. -/
structure Anc (U X R : Type) where
  x : X
  u : U
  r : R

/-- What the program keeps along with the certificate. -/
def Anc.meta {U X R : Type} (a : Anc U X R) : U × R := (a.u, a.r)

/-- The publication point in which a file is listed, and its CRL. -/
structure Point (U C : Type) where
  lists : Lists U
  crl : C

/-- What becomes of a certificate. -/
inductive Verdict (U X C R : Type) where
  /-- Not acceptable. -/
  | rejected
  /-- Not an error, but not a certification authority either. -/
  | ignored
  /-- A certification authority, with its publication point. -/
  | accepted (a : Anc U X R) (pp : Point U C)

/-- A file is looked at, under these ancestors (the nearest one first). -/
def seen (chain : List (Anc U X R)) (crl : Option C) (u : U) : Event U X C R :=
  .cert u (chain.map Anc.x) (chain.map Anc.meta) crl

/-- The certification authority's manifest. -/
def judgeMft (env : Env σ U X C R S) (chain : List (Anc U X R)) (a : Anc U X R) (sia : S) (d : U) (s : σ) : σ × Verdict U X C R :=
  match env.mftDecode s sia d with
  | (s, none) => (s, .rejected)
  | (s, some lists) =>
    match env.crlLoad s lists.crl with
    | (s, none) => (s, .rejected)
    | (s, some c) =>
      match env.mftOk s sia d lists c ((a :: chain).map Anc.x) a.r with
      | (s, false) => (s, .rejected)
      | (s, true) => (s, .accepted a ⟨lists, c⟩)

/-- A certificate that says that it is a certification authority's. -/
def judgeCa (env : Env σ U X C R S) (chain : List (Anc U X R)) (parent : Option (Point U C)) (u : U) (x : X) (t : CType) (s : σ) :
    σ × Verdict U X C R :=
  match env.profileOk s x t with
  | (s, false) => (s, .rejected)
  | (s, true) =>
    match env.extensions s x t (parent.map fun p => p.lists.crl) with
    | (s, none) => (s, .rejected)
    | (s, some sia) =>
      match env.download s sia with
      | (s, none) => (s, .rejected)
      | (s, some d) =>
        match env.resources s x sia t (chain.head?.map Anc.r) with
        | (s, none) => (s, .rejected)
        | (s, some r) => judgeMft env chain ⟨x, u, r⟩ sia d s

/-- The chain of signatures, against the CRL. The root has none. -/
def judgeChain (env : Env σ U X C R S) (chain : List (Anc U X R)) (parent : Option (Point U C)) (x : X) (s : σ) : σ × Bool :=
  match parent with
  | none => (s, true)
  | some p => env.chainOk s x p.crl (chain.map Anc.x)

/-- A certificate is judged by its own contents, its ancestors, and the publication point it's listed in (none for the root). -/
def judge (env : Env σ U X C R S) (chain : List (Anc U X R)) (parent : Option (Point U C)) (u : U) (s : σ) : σ × Verdict U X C R :=
  match env.load s u with
  | (s, none) => (s, .rejected)
  | (s, some x) =>
    match judgeChain env chain parent x s with
    | (s, false) => (s, .rejected)
    | (s, true) =>
      match env.certType x parent.isNone with
      | none => (s, .rejected)
      | some .bgpsec => (s, .ignored)
      | some .ee => (s, .ignored)
      | some .ta => judgeCa env chain parent u x .ta s
      | some .ca => judgeCa env chain parent u x .ca s

/-- What the walk carries: everything outside of it, and what was looked at (most recent first). -/
abbrev W (σ U X C R : Type) := σ × List (Event U X C R)

/-- A ROA of `a`'s publication point. -/
def walkRoa (env : Env σ U X C R S) (chain : List (Anc U X R)) (a : Anc U X R) (pp : Point U C) (w : W σ U X C R) (u : U) : W σ U X C R :=
  match env.roaDecode w.1 u with
  | (s, false) => (s, w.2)
  | (s, true) => (env.roa s u pp.lists.crl pp.crl ((a :: chain).map Anc.x) a.r,
      .roa u ((a :: chain).map Anc.x) ((a :: chain).map Anc.meta) pp.crl :: w.2)

/-- A Ghostbusters record of `a`'s publication point. -/
def walkGbr (env : Env σ U X C R S) (chain : List (Anc U X R)) (a : Anc U X R) (pp : Point U C) (w : W σ U X C R) (u : U) : W σ U X C R :=
  match env.gbrDecode w.1 u with
  | (s, false) => (s, w.2)
  | (s, true) => (env.gbr s u pp.lists.crl pp.crl ((a :: chain).map Anc.x) a.r,
      .gbr u ((a :: chain).map Anc.x) ((a :: chain).map Anc.meta) pp.crl :: w.2)

/-- The files of a publication point that are not certificates. -/
def walkFiles (env : Env σ U X C R S) (chain : List (Anc U X R)) (a : Anc U X R) (pp : Point U C) (w : W σ U X C R) : W σ U X C R :=
  pp.lists.gbrs.foldl (walkGbr env chain a pp) (pp.lists.roas.foldl (walkRoa env chain a pp) w)

/-- The tree below a certificate, down to so many levels. If it is accepted: its ROAs, its Ghostbusters records, and then each of the
certificates it lists, in order, whatever happens to their siblings. -/
def walk (env : Env σ U X C R S) : Nat → List (Anc U X R) → Option (Point U C) → U → W σ U X C R → W σ U X C R × Bool
  | 0, _, _, _, w => (w, false)
  | n + 1, chain, parent, u, w =>
    match judge env chain parent u w.1 with
    | (s, .rejected) => ((s, seen chain (parent.map Point.crl) u :: w.2), false)
    | (s, .ignored) => ((s, seen chain (parent.map Point.crl) u :: w.2), true)
    | (s, .accepted a pp) =>
      (pp.lists.certs.foldl (fun w v => (walk env n (a :: chain) (some pp) v w).1)
        (walkFiles env chain a pp (s, seen chain (parent.map Point.crl) u :: w.2)), true)

/-- The file `u` has these ancestors, starting at the root's certificate `root`, and is listed in `parent`: each ancestor was
accepted under its own ancestors, and is the issuer of the publication point that lists the next one. -/
inductive Under (env : Env σ U X C R S) (root : U) : List (Anc U X R) → Option (Point U C) → U → Prop where
  | root : Under env root [] none root
  | listed {chain parent u a pp v s s'} : Under env root chain parent u → judge env chain parent u s = (s', .accepted a pp) →
      v ∈ pp.lists.certs → Under env root (a :: chain) (some pp) v

/-- A file was looked at as it should: under its own ancestors, and with the CRL of the publication point that lists it. -/
inductive Fair (env : Env σ U X C R S) (root : U) : Event U X C R → Prop where
  | cert {chain parent u} : Under env root chain parent u →
      Fair env root (.cert u (chain.map Anc.x) (chain.map Anc.meta) (parent.map Point.crl))
  | roa {chain parent u a pp v s s'} : Under env root chain parent u → judge env chain parent u s = (s', .accepted a pp) →
      v ∈ pp.lists.roas → Fair env root (.roa v ((a :: chain).map Anc.x) ((a :: chain).map Anc.meta) pp.crl)
  | gbr {chain parent u a pp v s s'} : Under env root chain parent u → judge env chain parent u s = (s', .accepted a pp) →
      v ∈ pp.lists.gbrs → Fair env root (.gbr v ((a :: chain).map Anc.x) ((a :: chain).map Anc.meta) pp.crl)

/-- How many certificates a file was looked at with. -/
def Event.depth : Event U X C R → Nat
  | .cert _ xs _ _ => xs.length + 1
  | .roa _ xs _ _ => xs.length
  | .gbr _ xs _ _ => xs.length

/-- The tree below a certificate, when nothing that is done changes what is done later: the files in the order in which they're
looked at. What is in the tree of a certificate does not depend on its siblings. -/
def tree (env : Env Unit U X C R S) : Nat → List (Anc U X R) → Option (Point U C) → U → List (Event U X C R)
  | 0, _, _, _ => []
  | n + 1, chain, parent, u =>
    seen chain (parent.map Point.crl) u ::
      match (judge env chain parent u ()).2 with
      | .rejected => []
      | .ignored => []
      | .accepted a pp =>
        (pp.lists.roas.filter fun v => (env.roaDecode () v).2).map
            (fun v => .roa v ((a :: chain).map Anc.x) ((a :: chain).map Anc.meta) pp.crl) ++
          (pp.lists.gbrs.filter fun v => (env.gbrDecode () v).2).map
            (fun v => .gbr v ((a :: chain).map Anc.x) ((a :: chain).map Anc.meta) pp.crl) ++
          pp.lists.certs.flatMap (tree env n (a :: chain) (some pp))

end Verif.Tree
