import Verif.Model.Whole
import Verif.Spec.Lifecycle
/-
Specification vocabulary for the place that a connection has in the pool.
-/
namespace Gringo.Spec

variable {M : Type}

/-- The read handler is banning somebody, or about to. -/
def Banning (p : Lifecycle.Peer M) : Prop := p.reader = .handling .close ∨ ∃ d, p.reader = .closing d

/-- Some run leads from the first state to the second in which only this process moves: neither a remote peer nor a caller
does anything. -/
inductive Alone (frame : M → Bytes) (ping ask : M) (w : Whole.State M) : Whole.State M → Prop
  | here : Alone frame ping ask w w
  | next {w' w'' : Whole.State M} (h : Alone frame ping ask w w') (hp : w'.panicked = false)
      (hs : Whole.Step frame ping ask w' .own w'') : Alone frame ping ask w w''

/-- No goroutine of `Stop` is at work: the pool was not stopped yet, or those it started (p2p/pool.go:305-310) have ended. -/
def NoneStopping (w : Whole.State M) : Prop := ∀ e ∈ w.closers, e.2 = .over

/-- A connection is over: its place in the pool was given back, its socket was closed, once, both of its handlers have
ended and every call on it has returned. -/
def Over (x : Whole.Conn M) : Prop := x.watch = .gone ∧ x.peer.conn = 1 ∧ Settled x.peer

end Gringo.Spec
