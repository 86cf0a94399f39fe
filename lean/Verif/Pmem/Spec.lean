import Verif.Pmem.Model
/-
C210: what's meant.
-/
namespace Verif.Pmem
open Verif.Heap

/-- Print mode, when this happens: whether it succeeds, and the heap at the end. `oom`: there may be no memory for the BIOs that put the header back. -/
def run (oom : Bool) (w : Where) (given : Option Kind) (happens : Nat → Nat) : Bool × H := printFile oom w given (H.init happens)

/-- Nothing that isn't allocated (and no NULL pointer) has been used or released. -/
def Safe (h : H) : Prop := h.bad = false

/-- Nothing is allocated. -/
def Empty (h : H) : Prop := ∀ i, h.refs i = 0

end Verif.Pmem
