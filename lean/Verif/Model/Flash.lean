/-
Model of saving and loading the configuration in flash: gd32f4_init.c:217-246 and stm32f4-discovery.c:904-940, with the memory
layout of gd32f4.ld and stm32f4-discovery.ld.

Flash is modelled from the reference manuals: erasing a sector sets every bit of it, programming a word can only clear bits
(so it stores the word only where the flash is erased).  Addresses are in 32-bit words from the start of the flash
(0x08000000).  Not modelled: unlocking, the watchdog, and flash operations that fail (their results are not looked at by the
code).  `_econfigdata - _sconfigdata` is a multiple of the word size (`ALIGN(4)` in both linker scripts).
-/
import Verif.Base.Arr

namespace Verif

/-- The contents of the flash, by word. -/
abbrev Flash := Nat → BitVec 32

/-- Erase the words `start .. start + len`. -/
def Flash.erase (f : Flash) (start len : Nat) : Flash := fun a => if start ≤ a ∧ a < start + len then BitVec.allOnes 32 else f a

/-- Program a word. -/
def Flash.program (f : Flash) (a : Nat) (w : BitVec 32) : Flash := fun b => if b = a then f b &&& w else f b

/-- One flash operation. -/
inductive FlashOp
  | erase (start len : Nat)
  | program (a : Nat) (w : BitVec 32)

def Flash.op (f : Flash) : FlashOp → Flash
  | .erase s l => f.erase s l
  | .program a w => f.program a w

def Flash.run (f : Flash) (ops : List FlashOp) : Flash := ops.foldl Flash.op f

/-- The two targets with flash. -/
inductive FlashTarget | gd32 | stm32
  deriving DecidableEq

/-- `_configdata_loadaddr`: the start of `configrom`, 0x08060000 (gd32f4.ld) or 0x08004000 (stm32f4-discovery.ld). -/
def configRom : FlashTarget → Nat
  | .gd32 => 0x60000 / 4
  | .stm32 => 0x4000 / 4

/-- The length of `configrom` in words: 128K or 48K. -/
def configRomLen : FlashTarget → Nat
  | .gd32 => 0x20000 / 4
  | .stm32 => 0xC000 / 4

/-- The erasing, for a configuration of `n` words: gd32f4_init.c:236 (sector 7, 384K to 512K); stm32f4-discovery.c:926-931
(sectors 1 and up, of 16K each as long as the sector number is below 4). -/
def saveErase (n : Nat) : FlashTarget → List FlashOp
  | .gd32 => [.erase (0x60000 / 4) (0x20000 / 4)]
  | .stm32 =>
      let confBytes := 4 * n
      let nSectors := (confBytes + 16385) / 16386
      (List.range nSectors).map fun i => .erase ((1 + i) * (0x4000 / 4)) (0x4000 / 4)

/-- The programming: gd32f4_init.c:238-242; stm32f4-discovery.c:932-935. -/
def saveProgram (n : Nat) (t : FlashTarget) (ram : Nat → BitVec 32) : List FlashOp :=
  (List.range n).map fun i => .program (configRom t + i) (ram i)

/-- The flash operations of `platform_save_config`. -/
def saveOps (n : Nat) (t : FlashTarget) (ram : Nat → BitVec 32) : List FlashOp := saveErase n t ++ saveProgram n t ram

/-- gd32f4_init.c:217-223, stm32f4-discovery.c:905-911 `platform_load_config`: word `i` of the configuration. -/
def loadConfig (t : FlashTarget) (f : Flash) (i : Nat) : BitVec 32 := f (configRom t + i)

end Verif
