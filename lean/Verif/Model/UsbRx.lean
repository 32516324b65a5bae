/-
Model of the receiving side of the gd32's USB console together with the USB library under it ("lib" in the citations:
contrib/GD32F4xx_Firmware_Library/GD32F4xx_usb_library), where a packet takes three runs of the interrupt routine.  Verif.Model.Usb
has the same driver with the reception of a packet in one step.

Of the peripheral, from its manual: an enabled endpoint takes one packet of up to 64 bytes (the transfer is one packet long) and is
disabled by it; a disabled one tells the host to try again.  In the receive FIFO a packet is followed by an entry "transfer
complete"; taking that entry out raises the flag DOEPINTF.TF.  How soon the next entry is there, and so whether the main loop gets
to run between two interrupts, is not said: here it may.  The FIFO is taken to have room.  Not modelled: endpoint 0, resets of the
bus, the time before the host has selected the configuration (cur_status is USBD_CONFIGURED throughout).
-/
import Verif.Model.Usb
import Verif.Model.UsbTx

namespace Verif

/-- An entry of the receive FIFO, GRSTATP's RPCKST: RSTAT_DATA_UPDT with its bytes, RSTAT_XFER_COMP. -/
inductive UsbEntry
  | data (bs : List Byte)
  | comp
  deriving DecidableEq

/-- Where `console_read` (gd32f4_usb.c:452-467) is. -/
inductive UsbRxPc
  /-- not running -/
  | idle
  /-- it has found `pending_read` false and room for a packet; before `transc->xfer_buf = pbuf` (lib usbd_core.c:172) -/
  | buf
  /-- before `transc->xfer_count = 0U` (lib usbd_core.c:174) -/
  | count
  /-- before the endpoint is enabled (lib drv_usb_dev.c:467-469) -/
  | arm
  deriving DecidableEq

/-- Peripheral, library, driver and reader. -/
structure UsbRx where
  /-- DOEPCTL.EPEN -/
  epen : Bool
  /-- the receive FIFO -/
  fifo : List UsbEntry
  /-- DOEPINTF.TF -/
  tf : Bool
  /-- `transc->xfer_buf`, counted from `rxbuffer` -/
  off : Nat
  /-- `transc->xfer_count` -/
  count : Nat
  /-- `rxbuffer`, gd32f4_usb.c:437 -/
  buf : List Byte
  /-- `rx_len`, gd32f4_usb.c:438 -/
  len : Nat
  /-- `state.pending_read` -/
  pending : Bool
  pc : UsbRxPc
  /-- `rx_buffer_size` of src/console.c:308 -/
  fill : Nat
  /-- everything that `console_read` has stored, in order -/
  stored : List Byte
  /-- everything that the host has got rid of, in order -/
  accepted : List Byte
  deriving DecidableEq

/-- After `cdc_acm_init`, gd32f4_usb.c:278-297; `xfer_buf` is still a null pointer, but the endpoint is not enabled before it is set. -/
def UsbRx.boot : UsbRx :=
  { epen := false, fifo := [], tf := false, off := 0, count := 0, buf := List.replicate 64 0, len := 0, pending := false, pc := .idle,
    fill := 0, stored := [], accepted := [] }

/-- `l` with `w` written over it from `i` on. -/
def overwrite (l : List Byte) (i : Nat) (w : List Byte) : List Byte := l.take i ++ w ++ l.drop (i + w.length)

/-- lib drv_usbd_int.c:241-283 `usbd_int_epout` for endpoint 1, with lib usbd_transc.c:172-211 `usbd_out_transc` and gd32f4_usb.c:446-450
`cdc_acm_out`. -/
def UsbRx.epout (s : UsbRx) : UsbRx := if s.tf then { s with tf := false, len := s.count, pending := true } else s

/-- lib drv_usbd_int.c:330-404 `usbd_int_rxfifo` with lib drv_usb_core.c:251-264 `usb_rxfifo_read`, which writes whole words
(`padWords`: the bytes that fill up the last word are taken to be 0). -/
def UsbRx.rxfifo (s : UsbRx) : Except Fault UsbRx :=
  match s.fifo with
  | [] => .ok s
  | .data bs :: rest =>
      let w := padWords bs
      if s.off + w.length ≤ s.buf.length then
        .ok { s with fifo := rest, buf := overwrite s.buf s.off w, off := s.off + bs.length, count := s.count + bs.length }
      else .error .oob
  | .comp :: rest => .ok { s with fifo := rest, tf := true }

/-- What can happen next. -/
inductive UsbRxAct
  /-- the host offers a packet -/
  | packet (bs : List Byte)
  /-- the interrupt routine runs once, lib drv_usbd_int.c:63-110 -/
  | irq
  /-- `console_read` is called by `console_try_read`, src/console.c:318-325 -/
  | poll
  /-- `console_read` goes on -/
  | step
  /-- the console drops `n` bytes from its buffer (src/console.c:311-315, 345, 369-378) -/
  | drop (n : Nat)
  deriving DecidableEq

/-- One step.  The copy of gd32f4_usb.c:455-460 is one step, although `rx_len` is read again after interrupts are enabled.  The
stores of `usbd_ep_recev` are made in the order of the source. -/
def UsbRx.act (s : UsbRx) : UsbRxAct → Except Fault UsbRx
  | .packet bs =>
      if s.epen ∧ bs.length ≤ 64 then
        .ok { s with epen := false, fifo := s.fifo ++ [.data bs, .comp], accepted := s.accepted ++ bs }
      else .ok s
  | .irq => s.epout.rxfifo
  | .poll =>
      if s.pc ≠ .idle then .ok s
      else if s.pending then                                                                    -- gd32f4_usb.c:454
        if s.len ≤ rxCapacity - s.fill then                                                     -- 456: compiled out
          .ok { s with pending := false, fill := s.fill + s.len, stored := s.stored ++ s.buf.take s.len }
        else .error .oob                                                                        -- 457
      else if 64 ≤ rxCapacity - s.fill then .ok { s with pc := .buf }                            -- 463
      else .ok s
  | .step =>
      match s.pc with
      | .idle => .ok s
      | .buf => .ok { s with off := 0, pc := .count }                                           -- lib usbd_core.c:172
      | .count => .ok { s with count := 0, pc := .arm }                                         -- lib usbd_core.c:174
      | .arm => .ok { s with epen := true, pc := .idle }                                        -- lib drv_usb_dev.c:467-469
  | .drop n => .ok { s with fill := s.fill - n }

def UsbRx.run (s : UsbRx) : List UsbRxAct → Except Fault UsbRx
  | [] => .ok s
  | a :: as => do
    let s ← s.act a
    s.run as

end Verif
