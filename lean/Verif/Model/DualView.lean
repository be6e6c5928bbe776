import Mathlib.Data.Nat.Basic
import Mathlib.Tactic.NormNum

/-!
# The host / device mirror

Model of `DualView` (src/dual_view/dual_view.hpp). The two memories are distinct; where they are the same allocation
(`create_mirror_view` on a host memory space) the copies are the identity and every access trivially sees the latest write. A view
obtained from an access is used before the next access; keeping an old view is not modelled.
-/

namespace Heracles.Dual

/-- src/dual_view/dual_view.hpp 19: `access_target`. -/
inductive Target
  | host
  | device
  deriving DecidableEq

/-- src/dual_view/dual_view.hpp 17: `access_mode`: read_only, read_write, discard_write. -/
inductive Mode
  | readOnly
  | readWrite
  | discardWrite
  deriving DecidableEq

/-- Range of `unsigned int`. -/
def uintSize : ℕ := 4294967296

/-- src/dual_view/dual_view.hpp 117-123: the members. Flags are `unsigned int`: naturals below `uintSize`. -/
structure DualView (V : Type) where
  flagDevice : ℕ
  flagHost : ℕ
  device : V
  host : V

variable {V : Type}

/-- src/dual_view/dual_view.hpp 168-180: the constructor; both memories are zero initialised. -/
def mk (zero : V) : DualView V := { flagDevice := 0, flagHost := 0, device := zero, host := zero }

/-- src/dual_view/dual_view.hpp 52-56: `has_read_access`. -/
def hasRead : Mode → Bool
  | .readOnly => true
  | .readWrite => true
  | .discardWrite => false

/-- src/dual_view/dual_view.hpp 58-62: `has_write_access`. -/
def hasWrite : Mode → Bool
  | .readOnly => false
  | .readWrite => true
  | .discardWrite => true

/-- src/dual_view/dual_view.hpp 135-147: `mark_modified`; the addition wraps. -/
def markModified (d : DualView V) : Target → DualView V
  | .device => { d with flagDevice := (max d.flagHost d.flagDevice + 1) % uintSize }
  | .host => { d with flagHost := (max d.flagHost d.flagDevice + 1) % uintSize }

/-- src/dual_view/dual_view.hpp 246-256: `need_synchronization`. -/
def needSync (d : DualView V) : Target → Bool
  | .device => decide (d.flagDevice < d.flagHost)
  | .host => decide (d.flagHost < d.flagDevice)

/-- src/dual_view/dual_view.hpp 291-297: `clear_synchronization_state`. -/
def clear (d : DualView V) : DualView V := { d with flagDevice := 0, flagHost := 0 }

/-- src/dual_view/dual_view.hpp 258-271: `synchronize`. -/
def synchronize (d : DualView V) (t : Target) : DualView V :=
  if needSync d t then
    match t with
    | .device => clear { d with device := d.host }
    | .host => clear { d with host := d.device }
  else d

/-- src/dual_view/dual_view.hpp 149-165, reached from 273-289: `access`, up to the returned view. -/
def access (d : DualView V) (t : Target) (m : Mode) : DualView V :=
  let d := if hasRead m then synchronize d t else d
  if hasWrite m then markModified d t else d

/-- src/dual_view/dual_view.hpp 125-133: the memory a view of the target refers to. -/
def DualView.get (d : DualView V) : Target → V
  | .device => d.device
  | .host => d.host

/-- Storing through a view of the target. -/
def DualView.set (d : DualView V) (t : Target) (v : V) : DualView V :=
  match t with
  | .device => { d with device := v }
  | .host => { d with host := v }

/-- What a client does with one access: read all elements; read and replace them; overwrite them all. -/
inductive Op (V : Type)
  | read (t : Target)
  | update (t : Target) (f : V → V)
  | overwrite (t : Target) (v : V)

/-- The access with the matching mode, followed by what the client does; the value it sees, if it reads. -/
def exec (d : DualView V) : Op V → DualView V × Option V
  | .read t => let d := access d t .readOnly; (d, some (d.get t))
  | .update t f => let d := access d t .readWrite; (d.set t (f (d.get t)), some (d.get t))
  | .overwrite t v => let d := access d t .discardWrite; (d.set t v, none)

/-- A sequence of client operations; the values seen, in order. -/
def execAll (d : DualView V) : List (Op V) → DualView V × List (Option V)
  | [] => (d, [])
  | o :: os => let r := exec d o; let q := execAll r.1 os; (q.1, r.2 :: q.2)

end Heracles.Dual
