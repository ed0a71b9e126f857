/-! # Transfer slots

`crates/portalnet/src/utp/controller.rs:51-111`. `tokio::sync::Semaphore` is not in /repo: it is the
number of permits left, `try_acquire_owned` takes one if there is one and dropping an
`OwnedSemaphorePermit` gives it back. A transfer is named by an identifier and holds its permit until
it ends (success, failure or abandonment: the permit is dropped with the task). -/

namespace Verif.Slots

inductive Direction where
  | inbound
  | outbound
deriving DecidableEq, Repr

/-- One semaphore: the permits left, and the transfers that hold one. -/
structure Sem where
  available : Nat
  held : List Nat
deriving DecidableEq, Repr

/-- `UtpController`: the two semaphores (controller.rs:25-30). -/
structure State where
  inbound : Sem
  outbound : Sem
deriving DecidableEq, Repr

/-- `UtpController::new` (controller.rs:52-63). -/
def init (limit : Nat) : State := ⟨⟨limit, []⟩, ⟨limit, []⟩⟩

def State.get (s : State) : Direction → Sem
  | .inbound => s.inbound
  | .outbound => s.outbound

def State.set (s : State) : Direction → Sem → State
  | .inbound, x => { s with inbound := x }
  | .outbound, x => { s with outbound := x }

/-- `try_acquire_owned` for transfer `t` (controller.rs:73-87 and 95-109): `true` is `Some(permit)`. -/
def Sem.acquire (s : Sem) (t : Nat) : Sem × Bool :=
  if s.available = 0 then (s, false) else (⟨s.available - 1, t :: s.held⟩, true)

/-- The permit of transfer `t` is dropped. -/
def Sem.release (s : Sem) (t : Nat) : Sem :=
  if t ∈ s.held then ⟨s.available + 1, s.held.erase t⟩ else s

inductive Op where
  | acquire (d : Direction) (t : Nat)
  | release (d : Direction) (t : Nat)
deriving DecidableEq, Repr

/-- `get_inbound_semaphore`, `get_outbound_semaphore` (controller.rs:72-111) and the end of a
transfer. The Boolean answers the acquisition. -/
def step (s : State) : Op → State × Bool
  | .acquire d t => let r := (s.get d).acquire t; (s.set d r.1, r.2)
  | .release d t => (s.set d ((s.get d).release t), true)

def run (s : State) (ops : List Op) : State := ops.foldl (fun s o => (step s o).1) s

end Verif.Slots
