import Verif.Model.Lifecycle
/-
Specification vocabulary for the goroutines of one peer.
-/
namespace Gringo.Spec
open Gringo.Lifecycle

variable {M : Type}

/-- The read handler does not run any more (or was never started). -/
def ReaderOver (s : Peer M) : Prop := s.reader = .notStarted ∨ s.reader = .leaving .returned

/-- The write handler does not run any more (or was never started). -/
def WriterOver (s : Peer M) : Prop := s.writer = .notStarted ∨ s.writer = .leaving .returned

/-- The call has returned. -/
def CallOver : Thread M → Prop
  | .disconnect .returned | .sent _ _ | .woken => True
  | _ => False

/-- Nothing is left to do: both handlers ended and every call returned. -/
def Settled (s : Peer M) : Prop := ReaderOver s ∧ WriterOver s ∧ ∀ t ∈ s.threads, CallOver t

/-- The read handler itself is the one who disconnects, out of the handling of a message. -/
def SelfClosing (s : Peer M) : Prop :=
  s.reader = .closing .won ∨ s.reader = .closing .closing ∨ s.reader = .closing .waiting

/-- `Run frame s s' n c`: some schedule leads from `s` to `s'` in which `c` new calls are made and `n` other
steps are taken. -/
inductive Run (frame : M → Bytes) (s : Peer M) : Peer M → Nat → Nat → Prop
  | refl : Run frame s s 0 0
  | call {s' s'' : Peer M} {n c : Nat} (h : Run frame s s' n c) (hs : Step frame .call s' s'') :
      Run frame s s'' n (c + 1)
  | step {s' s'' : Peer M} {n c : Nat} {k : Kind} (h : Run frame s s' n c) (hk : k ≠ .call)
      (hs : Step frame k s' s'') : Run frame s s'' (n + 1) c

/-- The handlers neither read, handle nor write anything. -/
def Still (s : Peer M) : Prop :=
  (s.reader = .notStarted ∨ s.reader = .loop ∨ s.reader = .stopping ∨ ∃ d, s.reader = .leaving d) ∧
  (s.writer = .notStarted ∨ s.writer = .select ∨ (∃ m, s.writer = .got m) ∨ s.writer = .stopping ∨
    ∃ d, s.writer = .leaving d)

/-- The process cannot do anything: whether something goes on is up to the remote peer or new calls. -/
def Idle (frame : M → Bytes) (s : Peer M) : Prop := ∀ s', ¬ Step frame .own s s'

/-- Nobody has disconnected the peer, and its write handler runs and has not met an error. -/
def Serving (s : Peer M) : Prop :=
  s.flag = false ∧ (s.writer = .select ∨ (∃ m, s.writer = .got m) ∨ ∃ m q, s.writer = .writing m q)

/-- `Serve frame s s' n`: some schedule leads from `s` to `s'`, with any calls and any remote behaviour, in which the
peer keeps serving and the write handler moves `n` times: it takes a message, begins to write it, hands some bytes to
the connection, or returns to wait for the next message. -/
inductive Serve (frame : M → Bytes) (s : Peer M) : Peer M → Nat → Prop
  | refl (h : Serving s) : Serve frame s s 0
  | other {s' s'' : Peer M} {n : Nat} {k : Kind} (h : Serve frame s s' n) (hs : Step frame k s' s'')
      (hv : Serving s'') (hw : s''.writer = s'.writer) : Serve frame s s'' n
  | write {s' s'' : Peer M} {n : Nat} {k : Kind} (h : Serve frame s s' n) (hs : Step frame k s' s'')
      (hv : Serving s'') (hw : s''.writer ≠ s'.writer) : Serve frame s s'' (n + 1)

/-- Somebody waits in `WriteMessage`, the read handler with a reply or another goroutine. -/
def SendWaits (s : Peer M) : Prop := (∃ m, s.reader = .replying m) ∨ ∃ m, Thread.send m ∈ s.threads

/-- The message a `WriteMessage` call handed over. -/
def takenFrom : Thread M → List M
  | .sent m true => [m]
  | _ => []

end Gringo.Spec
