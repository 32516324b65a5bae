/-
Model of the receiving side of the USB consoles: gd32f4_usb.c:436-467 and stm32f4-discovery.c:452-458, 942-950, with the
request buffer of src/console.c:307-325 as the reader.

Of the USB library under the gd32 driver (contrib/GD32F4xx_Firmware_Library/GD32F4xx_usb_library; its sending side is in
Verif.Model.UsbTx): `usbd_ep_recev` (device/core/Source/usbd_core.c:167-184) arms the endpoint, and the peripheral accepts a packet of
up to 64 bytes only while it is armed, otherwise it tells the host to try again; accepting a packet disarms the endpoint and stores
it in the buffer given.  Simplified: a packet is stored and reported in one step; Verif.Model.UsbRx has the interrupts one by one.
libopencm3, under the stm32 driver, is not in the repository.  Assumed of it, from its documentation: it arms the endpoint again by
itself; `usbd_ep_read_packet` copies at most the length given, and what it does not copy is discarded.
-/
import Verif.Model.ConsoleIo

namespace Verif

/-- Where `console_read` of the gd32 is. -/
inductive UsbPc
  /-- not running -/
  | idle
  /-- between the test of `pending_read` (gd32f4_usb.c:454), found false with room for a packet (462), and `usbd_ep_recev` (463) -/
  | arm
  deriving DecidableEq

/-- The gd32 endpoint, the driver's variables and the reader. -/
structure UsbGd where
  /-- the endpoint accepts a packet -/
  armed : Bool
  /-- `state.pending_read`, gd32f4_usb.c:53 -/
  pending : Bool
  /-- `rxbuffer[0 .. rx_len)`, gd32f4_usb.c:436-437 -/
  rx : List Byte
  pc : UsbPc
  /-- `rx_buffer_size` of src/console.c:308 -/
  fill : Nat
  /-- everything that `console_read` has stored, in order -/
  stored : List Byte
  /-- everything that the host has got rid of, in order -/
  accepted : List Byte
  deriving DecidableEq

/-- gd32f4_usb.c:278-297 `cdc_acm_init` and the initial values.  The endpoint is armed by the first poll. -/
def UsbGd.boot : UsbGd :=
  { armed := false, pending := false, rx := [], pc := .idle, fill := 0, stored := [], accepted := [] }

/-- What can happen next. -/
inductive UsbGdAct
  /-- the host offers a packet -/
  | packet (bs : List Byte)
  /-- `console_read` is called by `console_try_read`, src/console.c:318-325 -/
  | poll
  /-- `console_read` goes on -/
  | step
  /-- the console drops `n` bytes from its buffer (src/console.c:311-315, 345, 369-378) -/
  | drop (n : Nat)
  deriving DecidableEq

/-- One step.  The copy of gd32f4_usb.c:455-460 is one step, although `rx_len` is read again after interrupts are enabled: while
the endpoint is not armed nothing can change it. -/
def UsbGd.act (s : UsbGd) : UsbGdAct → Except Fault UsbGd
  | .packet bs =>
      if s.armed ∧ bs.length ≤ 64 then
        .ok { s with armed := false, pending := true, rx := bs, accepted := s.accepted ++ bs }   -- gd32f4_usb.c:445-449
      else .ok s
  | .poll =>
      if s.pc ≠ .idle then .ok s
      else if s.pending then
        if s.rx.length ≤ rxCapacity - s.fill then                                               -- 456: compiled out
          .ok { s with pending := false, fill := s.fill + s.rx.length, stored := s.stored ++ s.rx }
        else .error .oob                                                                        -- 457
      else if 64 ≤ rxCapacity - s.fill then .ok { s with pc := .arm }                            -- 462
      else .ok s
  | .step =>
      match s.pc with
      | .idle => .ok s
      | .arm => .ok { s with armed := true, pc := .idle }                                       -- 463-465
  | .drop n => .ok { s with fill := s.fill - n }

def UsbGd.run (s : UsbGd) : List UsbGdAct → Except Fault UsbGd
  | [] => .ok s
  | a :: as => do
    let s ← s.act a
    s.run as

/-- USB_RX_BUF_LEN, stm32f4-discovery.c:451. -/
def usbRxLen : Nat := 1024

/-- The stm32 receive buffer: `usb_rx_buf[0 .. usb_rx_len)`. -/
structure UsbSt where
  buf : List Byte
  stored : List Byte
  accepted : List Byte
  deriving DecidableEq

def UsbSt.boot : UsbSt := { buf := [], stored := [], accepted := [] }

inductive UsbStAct
  | packet (bs : List Byte)
  /-- `console_read(buf, max)` -/
  | poll (max : Nat)
  deriving DecidableEq

/-- stm32f4-discovery.c:454-458 `cdcacm_data_rx_cb` and 942-950 `console_read` (interrupts masked: one step). -/
def UsbSt.act (s : UsbSt) : UsbStAct → UsbSt
  | .packet bs =>
      if bs.length ≤ 64 then
        { s with buf := s.buf ++ bs.take (usbRxLen - s.buf.length), accepted := s.accepted ++ bs }
      else s
  | .poll max =>
      let amt := if s.buf.length > max then max else s.buf.length
      { s with buf := s.buf.drop amt, stored := s.stored ++ s.buf.take amt }

def UsbSt.run (s : UsbSt) (as : List UsbStAct) : UsbSt := as.foldl UsbSt.act s

end Verif
