/-
What a log of events with a limited number of places is.
-/
import Verif.Model.EventLog

namespace Verif

/-- Events numbered by their position. -/
def numbered (l : List LogEvent) : List LogEvent := l.mapIdx fun i e => { e with seq := BitVec.ofNat 32 i }

/-- The events waiting in the log, oldest first. -/
def waiting (l : EventLog) : List LogEvent :=
  (List.range ((l.write.toNat + logSize - l.read.toNat) % logSize)).map
    fun j => l.events ⟨(l.read.toNat + j) % logSize, Nat.mod_lt _ (by decide)⟩

/-- The events that the client has got or will get, in order. -/
def kept (s : LogSys) : List LogEvent := s.delivered ++ waiting s.log

end Verif
