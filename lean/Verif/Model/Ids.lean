/-!
# Allocation of `model.id` under threads (thinc/model.py lines 51-53, 115-117)

```
with Model.global_id_lock:
    Model.global_id += 1
    self.id = Model.global_id
```
`Model.global_id += 1` is a separate read and write of the class attribute; `self.id = ...` is
another read.  Each of them, and acquiring and releasing the lock, is one atomic step; threads
interleave arbitrarily between steps.  Any number of threads, each constructing any number of
models.
-/
namespace Thinc

/-- Program counter of one thread; `todo` counts the constructions still to start. -/
inductive IdPc where
  | idle (todo : Nat)
  /-- lock held, about to read `Model.global_id` (line 116) -/
  | entered (todo : Nat)
  /-- has read `tmp`, about to write `tmp + 1` (line 116) -/
  | readTmp (todo tmp : Nat)
  /-- about to read `Model.global_id` into `self.id` (line 117) -/
  | written (todo : Nat)
  /-- about to release the lock -/
  | assigned (todo : Nat)

/-- Shared state: the class attribute, the lock, all threads, and the ids handed out so far
(newest first). -/
structure IdState where
  globalId : Nat
  lock : Option Nat
  pc : Nat → IdPc
  ids : List Nat

def IdState.setPc (s : IdState) (t : Nat) (p : IdPc) : IdState :=
  { s with pc := fun u => if u = t then p else s.pc u }

/-- One atomic step of thread `t`. -/
inductive IdStep : IdState → IdState → Prop where
  | acquire {s t k} : s.pc t = .idle (k + 1) → s.lock = none →
      IdStep s { (s.setPc t (.entered k)) with lock := some t }
  | read {s t k} : s.pc t = .entered k →
      IdStep s (s.setPc t (.readTmp k s.globalId))
  | write {s t k v} : s.pc t = .readTmp k v →
      IdStep s { (s.setPc t (.written k)) with globalId := v + 1 }
  | assign {s t k} : s.pc t = .written k →
      IdStep s { (s.setPc t (.assigned k)) with ids := s.globalId :: s.ids }
  | release {s t k} : s.pc t = .assigned k →
      IdStep s { (s.setPc t (.idle k)) with lock := none }

/-- Any finite execution. -/
inductive IdSteps : IdState → IdState → Prop where
  | refl {s} : IdSteps s s
  | tail {s₁ s₂ s₃} : IdSteps s₁ s₂ → IdStep s₂ s₃ → IdSteps s₁ s₃

end Thinc
