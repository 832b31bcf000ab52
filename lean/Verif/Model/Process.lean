import Verif.Model.Quasi

/-! # Several Quasiparticle objects in one process (dynaphopy/parameters.py:4-10, dynaphopy/__init__.py:43) -/

set_option autoImplicit false

namespace Verif

variable {K V Q : Type*}

/-- `Parameters` has the metaclass `Singleton`: there is at most one instance per process (`none`: not yet created); every
Quasiparticle has its own caches but the same settings object
(dynaphopy/parameters.py:4-10, dynaphopy/__init__.py:43). -/
structure Proc (K V Q : Type*) where
  instances : Option (QSettings K Q) := none
  objs : List (Quasi K V Q) := []

/-- `Quasiparticle(dynamic)`: `self._parameters = parameters.Parameters()` (dynaphopy/__init__.py:43) calls
`Singleton.__call__` (dynaphopy/parameters.py:7-10), which creates the instance only the first time. -/
def Proc.new (dflt : QSettings K Q) (p : Proc K V Q) : Proc K V Q :=
  let s := p.instances.getD dflt
  { instances := some s, objs := p.objs ++ [Quasi.fresh s] }

/-- A method call on object number `i`: it reads and writes the shared settings and its own caches
(dynaphopy/__init__.py:86-88). -/
def Proc.call (p : Proc K V Q) (i : ℕ) (f : Quasi K V Q → Quasi K V Q) : Proc K V Q :=
  match p.instances, p.objs[i]? with
  | some s, some o => let o' := f { o with s := s }; { instances := some o'.s, objs := p.objs.set i o' }
  | _, _ => p

/-- The result of a getter on object number `i` in state `p` (dynaphopy/__init__.py:86-88). -/
def Proc.result {α : Type*} (p : Proc K V Q) (i : ℕ) (f : Quasi K V Q → α) : Option α :=
  match p.instances, p.objs[i]? with
  | some s, some o => some (f { o with s := s })
  | _, _ => none

/-- The settings object number `i` works with (dynaphopy/__init__.py:86-88). -/
def Proc.settings (p : Proc K V Q) (i : ℕ) : Option (QSettings K Q) := p.result i (·.s)

end Verif
