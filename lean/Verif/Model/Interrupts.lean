/-
Model of `disable_interrupts`, `enable_interrupts` and `interrupts_enabled` on the four platforms.

On the microcontrollers and in the unit test platform there is one flow of control besides the interrupts; on the hosted
platform the "interrupts" are a thread, kept out by a recursive mutex.
-/
import Verif.Base.Arr

namespace Verif

/-- A call of `disable_interrupts` or `enable_interrupts`. -/
inductive MaskOp | disable | enable
  deriving DecidableEq

/-- The single-processor platforms. -/
inductive MaskPlatform | stm32 | gd32 | test
  deriving DecidableEq

/-- The processor's mask (PRIMASK) and the counter `interrupt_disables` / `int_disables`. -/
structure Mask where
  primask : Bool
  count : Int
  deriving DecidableEq

/-- At boot interrupts are enabled. -/
def Mask.boot : Mask := { primask := false, count := 0 }

/-- stm32f4-discovery.c:843-854; gd32f4_init.c:29-35; test.c:44-51 (which has no processor mask). -/
def Mask.op (p : MaskPlatform) (m : Mask) : MaskOp → Except Fault Mask
  | .disable =>
      match p with
      | .stm32 => .ok { primask := true, count := m.count + 1 }
      | .gd32 => .ok { m with primask := true }
      | .test => .ok { m with count := m.count + 1 }
  | .enable =>
      match p with
      | .stm32 => do
          cassert (decide (0 ≤ m.count - 1))
          return { primask := false, count := m.count - 1 }
      | .gd32 => .ok { m with primask := false }
      | .test => do
          cassert (decide (0 ≤ m.count - 1))
          return { m with count := m.count - 1 }

/-- stm32f4-discovery.c:856-858; gd32f4_init.c:37-39; test.c:86-88 `interrupts_enabled`. -/
def Mask.enabled (p : MaskPlatform) (m : Mask) : Bool :=
  match p with
  | .stm32 => !m.primask
  | .gd32 => !m.primask
  | .test => decide (m.count = 0)

/-- A sequence of calls. -/
def Mask.run (p : MaskPlatform) (m : Mask) : List MaskOp → Except Fault Mask
  | [] => .ok m
  | o :: os => m.op p o >>= fun m => m.run p os

/-- hosted.c:57-62: the recursive mutex `interrupt_mutex` (the attributes are set at lines 525-528), as the thread that holds
it and how often, and the counter `interrupt_disables`. -/
structure HostMask where
  owner : Option Nat
  depth : Nat
  count : Int
  deriving DecidableEq

def HostMask.boot : HostMask := { owner := none, depth := 0, count := 0 }

/-- hosted.c:64-81, called by thread `i`: `none` if the thread has to wait for the mutex.  `pthread_mutex_unlock` of a
recursive mutex the thread does not hold fails, and the program aborts (line 78-80).  Simplification: the counter and the
mutex change in one step. -/
def HostMask.op (m : HostMask) (i : Nat) : MaskOp → Except Fault (Option HostMask)
  | .disable =>
      if m.owner = none ∨ m.owner = some i then
        .ok (some { owner := some i, depth := m.depth + 1, count := m.count + 1 })
      else .ok none
  | .enable => do
      cassert (decide (0 ≤ m.count - 1))
      cassert (decide (m.owner = some i))
      return some { owner := if m.depth = 1 then none else some i, depth := m.depth - 1, count := m.count - 1 }

/-- hosted.c:83-85 `interrupts_enabled`. -/
def HostMask.enabled (m : HostMask) : Bool := decide (m.count = 0)

/-- The calls of several threads in the order they are made; a thread that has to wait makes its call later, which is
another sequence, so a sequence with a call that has to wait does not occur. -/
def HostMask.run (m : HostMask) : List (Nat × MaskOp) → Except Fault (Option HostMask)
  | [] => .ok (some m)
  | (i, o) :: os => do
      let r ← m.op i o
      match r with
      | none => return none
      | some m => HostMask.run m os

/-- The calls in scheduler.c:71-80 `deschedule_event`. -/
def descheduleMaskOps : List MaskOp := [.disable, .enable]

/-- The calls in gd32f4_init.c:225-246 `platform_save_config` before the flash is erased: line 226, then
`handle_emergency_shutdown` (tasks.c:128-144), which cancels each of the `armed` outputs that are not idle. -/
def saveConfigMaskOps (armed : Nat) : List MaskOp := .disable :: (List.replicate armed descheduleMaskOps).flatten

end Verif
