/-
Model of the sending side of the gd32's USB console: `console_write` and the class callbacks of
src/platforms/gd32f4/gd32f4_usb.c:278-303, 425-435, 469-484, and below them the USB library of
contrib/GD32F4xx_Firmware_Library/GD32F4xx_usb_library ("lib" in the citations).

Of the peripheral, from its manual: an enabled endpoint answers a token of the host with the next packet if the whole packet
is in its FIFO, otherwise it tells the host to try again; after the last packet of the transfer it raises the flag "transfer
finished" and disables the endpoint.  A bus reset makes the endpoint inactive.  Whether it also discards the FIFO and the
transfer is not said; both are modelled (`flush`).  Not modelled: endpoint 0, stalls, errors on the bus.
-/
import Verif.Model.ConsoleIo

namespace Verif

/-- `udev->dev.cur_status` (lib device/core/Include/usbd_core.h:51-54); `attached` is both USBD_DEFAULT and USBD_ADDRESSED. -/
inductive UsbStatus
  | attached
  | configured
  | suspended
  deriving DecidableEq

/-- Driver, class and endpoint. -/
structure UsbTx where
  /-- `cur_status` -/
  st : UsbStatus
  /-- `dev.config`: the configuration has been selected since power-on; a reset does not forget it -/
  config : Bool
  /-- `transc_in[1]` has its number and packet length: `usbd_ep_setup` has been called (lib usbd_core.c:101-127) -/
  setUp : Bool
  /-- the endpoint is active in the peripheral, DIEPCTL.EPACT -/
  active : Bool
  /-- its interrupts are enabled, DAEPINTEN -/
  inten : Bool
  /-- `state.pending_write`, gd32f4_usb.c:52 -/
  pending : Bool
  /-- `console_write` is in its loop, gd32f4_usb.c:480 -/
  waiting : Bool
  /-- the bytes from `transc->xfer_buf` on.  Simplified: those of the message, also when its buffer has since been reused -/
  src : List Byte
  /-- `transc->xfer_len` and `transc->xfer_count` -/
  len : Nat
  count : Nat
  /-- DIEPLEN: bytes and packets of the transfer that are still to be sent -/
  tlen : Nat
  pcnt : Nat
  /-- DIEPCTL.EPEN -/
  epen : Bool
  /-- the bit of DIEPFEINTEN: interrupt when the FIFO is empty -/
  feint : Bool
  /-- DIEPINTF.TF -/
  tf : Bool
  /-- the bytes in the FIFO, four to a word -/
  fifo : List Byte
  /-- the packets that the host has got, in order -/
  host : List (List Byte)
  deriving DecidableEq

/-- After `usbd_init`; no host yet. -/
def UsbTx.boot : UsbTx :=
  { st := .attached, config := false, setUp := false, active := false, inten := false, pending := false, waiting := false, src := [],
    len := 0, count := 0, tlen := 0, pcnt := 0, epen := false, feint := false, tf := false, fifo := [], host := [] }

/-- USB_CDC_DATA_PACKET_SIZE, usbd_conf.h:19. -/
def usbPacket : Nat := 64

/-- TX1_FIFO_FS_SIZE, usb_conf.h:9, in words. -/
def usbFifoWords : Nat := 64

/-- lib usbd_core.c:198-216 `usbd_ep_send` with lib drv_usb_dev.c:345-409 `usb_transc_inxfer`.  Before the first `usbd_ep_setup`
the number of `transc_in[1]` and its packet length are 0: the transfer is cut to length 0 and started on endpoint 0 instead
(not modelled further). -/
def UsbTx.send (s : UsbTx) (m : List Byte) : UsbTx :=
  if s.setUp then
    { s with
      src := m, len := m.length, count := 0, tlen := m.length,
      pcnt := if m.length = 0 then 1 else (m.length - 1 + usbPacket) / usbPacket,
      epen := true, feint := s.feint || decide (0 < m.length) }
  else { s with src := m, len := 0, count := 0 }

/-- gd32f4_usb.c:469-477: `console_write` up to its loop.  While a write is pending it returns 0, and the caller tries again. -/
def UsbTx.write (s : UsbTx) (m : List Byte) : UsbTx :=
  if s.waiting ∨ s.pending then s else { s with pending := true, waiting := true }.send m

/-- gd32f4_usb.c:479-483: the loop ends. -/
def UsbTx.leave (s : UsbTx) : UsbTx := if s.waiting ∧ ¬ s.pending then { s with waiting := false } else s

/-- Bytes as the FIFO takes them: whole words (lib drv_usb_core.c:225-241).  What follows the message in memory is taken to be 0. -/
def padWords (l : List Byte) : List Byte := l ++ List.replicate ((l.length + 3) / 4 * 4 - l.length) 0

/-- lib drv_usbd_int.c:563-586: the loop of `usbd_emptytxfifo_write`; `w` is `word_count`.  The fuel suffices, as each turn writes
at least one byte. -/
def UsbTx.fill : Nat → Nat → UsbTx → UsbTx
  | 0, _, s => s
  | fuel + 1, w, s =>
    if w ≤ usbFifoWords - s.fifo.length / 4 ∧ s.count < s.len then
      let n := min (s.len - s.count) usbPacket
      let s := { s with
        fifo := s.fifo ++ padWords (s.src.take n), src := s.src.drop n, count := s.count + n,
        feint := s.feint && decide (s.count + n ≠ s.len) }
      fill fuel ((n + 3) / 4) s
    else s

/-- lib drv_usbd_int.c:549-589 `usbd_emptytxfifo_write`. -/
def UsbTx.emptyFifo (s : UsbTx) : UsbTx := s.fill s.len ((min (s.len - s.count) usbPacket + 3) / 4)

/-- gd32f4_usb.c:425-435 `cdc_acm_in`: a transfer that ended with a full packet is followed by an empty one. -/
def UsbTx.acmIn (s : UsbTx) : UsbTx :=
  if s.len % usbPacket = 0 ∧ s.len ≠ 0 then s.send [] else { s with pending := false }

/-- lib drv_usbd_int.c:291-321 `usbd_int_epin`, for endpoint 1, with lib usbd_transc.c:220-262 `usbd_in_transc`; `txfe`: the peripheral
says that the FIFO is empty.  The flags are read once, before. -/
def UsbTx.epin (s : UsbTx) (txfe : Bool) : UsbTx :=
  if s.inten then
    let fe := txfe && s.feint
    let s1 := if s.tf then (if s.st = .configured then { s with tf := false }.acmIn else { s with tf := false }) else s
    if fe then s1.emptyFifo else s1
  else s

/-- What can happen next. -/
inductive UsbTxAct
  /-- the main loop calls `console_write` -/
  | write (m : List Byte)
  /-- its loop looks at `pending_write` -/
  | leave
  /-- the host asks for a packet -/
  | token
  /-- the interrupt is handled -/
  | irq (txfe : Bool)
  /-- the bus falls idle: the interrupt is handled with the suspend flag -/
  | suspend (txfe : Bool)
  /-- the bus wakes up: the interrupt is handled with the wakeup flag, before the host asks for anything -/
  | resume (txfe : Bool)
  /-- the host resets the bus: the interrupt is handled with the reset flag -/
  | reset (flush txfe : Bool)
  /-- the host selects the configuration (by endpoint 0): the interrupt is handled -/
  | configure (txfe : Bool)
  deriving DecidableEq

/-- A token of the host.  None comes while the bus is suspended. -/
def UsbTx.token (s : UsbTx) : UsbTx :=
  let n := min s.tlen usbPacket
  if s.st ≠ .suspended ∧ s.active ∧ s.epen ∧ 0 < s.pcnt ∧ (n + 3) / 4 * 4 ≤ s.fifo.length then
    { s with
      host := s.host ++ [s.fifo.take n], fifo := s.fifo.drop ((n + 3) / 4 * 4), tlen := s.tlen - n, pcnt := s.pcnt - 1,
      tf := decide (s.pcnt = 1) || s.tf, epen := decide (s.pcnt ≠ 1) }
  else s

/-- lib usbd_enum.c:695-722: a request to select the configuration has an effect.  (A wakeup makes the status `configured` whatever
it was before, so the second case occurs.) -/
def UsbTx.takesConfig (s : UsbTx) : Prop := s.st = .attached ∨ (s.st = .configured ∧ s.config = false)

instance (s : UsbTx) : Decidable s.takesConfig := by unfold UsbTx.takesConfig; infer_instance

/-- One step.  The interrupt routine, lib drv_usbd_int.c:63-147 `usbd_isr`, handles the endpoints before everything else. -/
def UsbTx.act (s : UsbTx) : UsbTxAct → UsbTx
  | .write m => s.write m
  | .leave => s.leave
  | .token => s.token
  | .irq txfe => s.epin txfe
  | .suspend txfe => { s.epin txfe with st := .suspended }                                  -- drv_usbd_int.c:519-540
  | .resume txfe => if s.st = .suspended then { s.epin txfe with st := .configured } else s -- drv_usbd_int.c:89-95
  | .reset flush txfe =>                                                                    -- drv_usbd_int.c:413-479
      let s := s.epin txfe
      let s := if flush then { s with fifo := [], tlen := 0, pcnt := 0, epen := false } else s
      { s with active := false, inten := false, tf := false, st := .attached }
  | .configure txfe =>                                                                      -- usbd_enum.c:687-725
      if s.takesConfig then
        -- gd32f4_usb.c:278-303 `cdc_acm_init`; the IN endpoints are looked at after it in the same interrupt
        { s with config := true, setUp := true, active := true, inten := true, pending := false, st := .configured }.epin txfe
      else s

def UsbTx.run (s : UsbTx) (as : List UsbTxAct) : UsbTx := as.foldl UsbTx.act s

end Verif
