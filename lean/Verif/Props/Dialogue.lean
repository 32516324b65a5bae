/-
C90: what a client sends is answered, and what it sets it reads back, over the line.
-/
import Verif.Proofs.Scan
import Verif.Spec.Dialogue
import Verif.Props.Stream
import Verif.Props.Reply
import Verif.Props.Named
import Verif.Props.Method
import Verif.Props.AnyRequest

namespace Verif

theorem readRequest_bytes {bits : Fl → BitVec 32} {unbits : BitVec 32 → Fl} {q : ClientReq}
    (h : (Wire.map q.definite q.entries).Ok) :
    readRequest unbits (q.bytes bits) = q.meaning fun x => unbits (bits x) := by
  have hs := steps_size (.map q.definite q.entries)
  have h1 := readItem_bytes (bits := bits) (unbits := unbits) (.map q.definite q.entries) (3 * (q.bytes bits).length) [] h
    (by rw [ClientReq.bytes, wire_size]; omega)
  rw [List.append_nil] at h1
  unfold readRequest
  rw [show q.bytes bits = Wire.bytes bits (.map q.definite q.entries) from rfl] at h1 ⊢
  rw [h1]
  rfl

theorem good_sendable {bits : Fl → BitVec 32} {q : ClientReq} (h : q.Good bits) : Sendable cbor (q.bytes bits) :=
  ⟨bytes_request bits h.ok, bytes_early bits h.early, h.size⟩

section
variable [FloatFmt] [LibM] {bits cbits : Fl → BitVec 32} {unbits cunbits : BitVec 32 → Fl}
  {rate : BitVec 32} {version : String}

/-- What the requests come to, given what the passes say. -/
theorem talk_exchange (hv : version.utf8ByteSize ≤ 255) {others : Console → Console → Prop}
    (hr : ∀ c, others c c) (htr : ∀ a b c, others a b → others b c → others a c)
    {returns : Bool} {p : List Byte} {since : Time} {T : List (List Byte)} {I : List RxInput} {O : List (List Byte)}
    (h : InTimeSince p since T I O) :
    ∀ {todo : List ClientReq} {is : List ConInput} {s : ConState} {ws : List Wire} {c0 : Console},
      T = todo.map (ClientReq.bytes cbits) → I = is.map ConInput.rx → (∀ q ∈ todo, q.Good cbits) →
      (∀ q ∈ todo, ∀ b p, lookupKey "path" (q.meaning fun x => unbits (cbits x)) = some (.arr b p) →
        p ≠ [] ∧ p ≠ [.text "tables"]) →
      (returns = true ∨ ∀ q ∈ todo, ¬IsMethod (q.meaning fun x => unbits (cbits x)) "bootloader") →
      (∀ i ∈ is, ∀ c, others c (i.between c)) →
      (∀ i ∈ is, ∀ c, Sized (fun _ => 24) (fun _ => 24) c → Sized (fun _ => 24) (fun _ => 24) (i.between c)) →
      s.rx = { buf := p, start := since } → others c0 s.c → Sized (fun _ => 24) (fun _ => 24) s.c →
      Talk (readRequest unbits) returns rate version cbor (fun w => (w.bytes bits).length) is s ws →
      Exchange rate version others c0 ((todo.take O.length).map (ClientReq.meaning fun x => unbits (cbits x)))
        (ofKind "response" ws) := by
  have hevs : ∀ (evs : List LogEvent), ofKind "response" (evs.map eventWire) = [] := fun evs =>
    ofKind_none (j := "event") (by decide) (by
      intro w hw
      obtain ⟨ev, -, rfl⟩ := List.mem_map.mp hw
      exact event_kind ev)
  have hrep : ∀ {i : ConInput} {c : Console} {last t : Time} {w : Wire}, Reports i c last w t → ofKind "response" [w] = [] := by
    intro i c last t w hw
    rcases report_kind hw with h | h <;> simp [ofKind, h]
  induction h with
  | done p since todo =>
    intro todo' is s ws c0 hT hI _ _ _ _ _ _ _ _ ht
    cases is with
    | cons => cases hI
    | nil =>
      cases ht
      exact .nil _
  | @nothing p since T i' I O h0 _ ih =>
    intro todo is s ws c0 hT hI hgood hpath hboot hbet hsz hrx hoth hs ht
    cases is with
    | nil => cases hI
    | cons i is =>
      rw [List.map_cons, List.cons.injEq] at hI
      obtain ⟨rfl, rfl⟩ := hI
      have hq' : processRx cbor s.rx i.rx = .ok (none, { buf := [], start := i.rx.t0 }) := by
        rw [hrx]; exact processRx_nothing h0
      cases ht with
      | boot hq hret _ =>
        rw [hq'] at hq
        cases hq
      | @pass _ _ _ q rx c reply e w t ws hq hrep' he hw hs' =>
        rw [hq'] at hq
        cases hq
        cases hrep'
        simp only [ofKind_append, hevs, hrep hw, List.append_nil, List.nil_append]
        exact ih hT rfl hgood hpath hboot (fun j hj => hbet j (List.mem_cons_of_mem i hj))
          (fun j hj => hsz j (List.mem_cons_of_mem i hj)) rfl
          (htr _ _ _ hoth (hbet i List.mem_cons_self _)) (hsz i List.mem_cons_self _ hs) hs'
  | @handle p since m T i' I O rest hf h0 _ ih =>
    intro todo is s ws c0 hT hI hgood hpath hboot hbet hsz hrx hoth hs ht
    cases is with
    | nil => cases hI
    | cons i is =>
      rw [List.map_cons, List.cons.injEq] at hI
      obtain ⟨rfl, rfl⟩ := hI
      cases todo with
      | nil => cases hT
      | cons q0 todo =>
        rw [List.map_cons, List.cons.injEq] at hT
        obtain ⟨rfl, rfl⟩ := hT
        have hg := hgood q0 List.mem_cons_self
        have hq' : processRx cbor s.rx i.rx =
            .ok (some (q0.bytes cbits), { buf := rest, start := if p = [] then i.rx.t0 else since }) := by
          rw [hrx]
          exact processRx_request (r := { buf := p, start := since }) cbor_ok hf (good_sendable hg).1 h0
        have hsz' := hsz i List.mem_cons_self _ hs
        cases ht with
        | boot hq hret hl =>
          exfalso
          rw [hq'] at hq
          cases hq
          rw [readRequest_bytes hg.ok] at hl
          rcases hboot with hb | hb
          · rw [hret] at hb; cases hb
          · exact hb q0 List.mem_cons_self ((C85_effects rate version _ hl).2.1.mp rfl)
        | @pass _ _ _ q rx c reply e w t ws hq hrep' he hw hs' =>
          rw [hq'] at hq
          cases hq
          have hmean := readRequest_bytes (bits := cbits) (unbits := unbits) hg.ok
          have fin : ∀ {l}, processRequest rate version (Wire.items structureWires) (readRequest unbits (q0.bytes cbits))
              (i.between s.c) = .ok (c, l, e) → Exchange rate version others c0
                (((q0 :: todo).take (O.length + 1)).map (ClientReq.meaning fun x => unbits (cbits x)))
                (.map false (answerWires (readRequest unbits (q0.bytes cbits)) l) :: ofKind "response" ws) := by
            intro l hl
            rw [hmean] at hl ⊢
            rw [List.take_succ_cons, List.map_cons]
            refine .cons (htr _ _ _ hoth (hbet i List.mem_cons_self _)) hl ?_
            exact ih rfl rfl (fun q hq => hgood q (List.mem_cons_of_mem q0 hq))
              (fun q hq => hpath q (List.mem_cons_of_mem q0 hq))
              (hboot.imp_right fun hb q hq => hb q (List.mem_cons_of_mem q0 hq)) (fun j hj => hbet j (List.mem_cons_of_mem i hj))
              (fun j hj => hsz j (List.mem_cons_of_mem i hj)) rfl (hr c)
              (process_sized rate version hv hsz' hl) hs'
          simp only [ofKind_append, hevs, hrep hw, List.append_nil]
          cases hrep' with
          | said hl hsize =>
            rw [ofKind_all (l := [_]) (by
              intro w hw
              rw [List.mem_singleton.mp hw]
              exact answer_kind hl)]
            exact fin hl
          | unsaid hl hsize =>
            exfalso
            have := answer_fits rate version (K := 3400) (by omega) (by
              intro b p isSet v c1 r hp _ _ hr
              rw [hmean] at hp
              have h1 := hpath q0 List.mem_cons_self b p hp
              exact small_path rate hv (fun _ _ => ⟨le_rfl, le_rfl⟩) hsz' table_bounds (by omega) h1.1 h1.2 hr) hl
            rw [wire_size, Wire.size] at hsize
            simp at hsize
            omega
  | @wait p since m T i' I O hf hne hp hlt ht' _ ih =>
    intro todo is s ws c0 hT hI hgood hpath hboot hbet hsz hrx hoth hs ht
    cases is with
    | nil => cases hI
    | cons i is =>
      rw [List.map_cons, List.cons.injEq] at hI
      obtain ⟨rfl, rfl⟩ := hI
      have hsend : Sendable cbor m := by
        cases todo with
        | nil => cases hT
        | cons q0 todo =>
          rw [List.map_cons, List.cons.injEq] at hT
          rw [hT.1]
          exact good_sendable (hgood q0 List.mem_cons_self)
      have hq' : processRx cbor s.rx i.rx =
          .ok (none, { buf := p ++ i.rx.got, start := if p = [] then i.rx.t0 else since }) := by
        rw [hrx]
        exact processRx_wait (r := { buf := p, start := since }) cbor_ok hf hsend hne hp hlt ht'
      cases ht with
      | boot hq hret _ =>
        rw [hq'] at hq
        cases hq
      | @pass _ _ _ q rx c reply e w t ws hq hrep' he hw hs' =>
        rw [hq'] at hq
        cases hq
        cases hrep'
        simp only [ofKind_append, hevs, hrep hw, List.append_nil, List.nil_append]
        exact ih hT rfl hgood hpath hboot (fun j hj => hbet j (List.mem_cons_of_mem i hj))
          (fun j hj => hsz j (List.mem_cons_of_mem i hj)) rfl
          (htr _ _ _ hoth (hbet i List.mem_cons_self _)) (hsz i List.mem_cons_self _ hs) hs'

omit [FloatFmt] [LibM] in
theorem request_id {req : List Item} {n : Int} (h : lookupKey "id" req = some (.int n)) (h1 : -2 ^ 31 ≤ n) (h2 : n < 2 ^ 31) :
    requestId req = n := by
  unfold requestId
  rw [mapFind_eq, h]
  show (BitVec.ofInt 32 n).toInt = n
  rw [BitVec.toInt_ofInt]
  exact Int.bmod_eq_of_le (by omega) (by omega)

/-- Every answer begins with the id of its request. -/
theorem answer_head {c c' : Console} {req l : List Item} {e : Effect}
    (h : processRequest rate version (Wire.items structureWires) req c = .ok (c', l, e)) :
    ∃ t, answerWires req l = [.text "type", .text "response", .text "id", .num (requestId req)] ++ t := by
  have hw : ∀ t : List Item, ∃ t', Item.wires ([.text "type", .text "response", .text "id", .int (requestId req)] ++ t) =
      [.text "type", .text "response", .text "id", .num (requestId req)] ++ t' := fun t => ⟨Item.wires t, rfl⟩
  unfold answerWires
  split
  · exact ⟨_, rfl⟩
  unfold processRequest at h
  dsimp only at h
  split at h
  · cases h; rw [List.append_assoc]; exact hw _
  split at h
  · cases h; rw [List.append_assoc]; exact hw _
  split at h
  · cases h; rw [List.append_assoc]; exact hw _
  split at h
  · cases h; exact hw _
  split at h
  · cases h; exact hw _
  split at h
  · cases h
  · cases h; exact hw _

theorem exchange_ids {others : Console → Console → Prop} (r : Fl → Fl) {c : Console} {reqs : List (List Item)} {ws : List Wire}
    (h : Exchange rate version others c reqs ws) :
    List.Forall₂ (fun req w => ∀ n : Int, lookupKey "id" req = some (.int n) → -2 ^ 31 ≤ n → n < 2 ^ 31 →
      w.entry "id" = some (.int n)) reqs (ws.map (Wire.seen r)) := by
  induction h with
  | nil => exact .nil
  | cons ho h ht ih =>
    refine .cons ?_ ih
    intro n hn h1 h2
    obtain ⟨t, ht⟩ := answer_head h
    rw [ht, request_id hn h1 h2]
    rfl

/-- C90: a client that sends its requests one after the other reads, among all that the console sends, the answers to
exactly the requests that have been handled, in their order, each with the id of its request, and each the answer that the
configuration as it then is gives to what the client meant. -/
theorem C90_dialogue (hv : version.utf8ByteSize ≤ 255) {others : Console → Console → Prop}
    (hr : ∀ c, others c c) (htr : ∀ a b c, others a b → others b c → others a c) {returns : Bool}
    {todo : List ClientReq} {is : List ConInput} {s : ConState} {handled : List (List Byte)} {out : List Byte}
    (hin : InTimeSince s.rx.buf s.rx.start (todo.map (ClientReq.bytes cbits)) (is.map ConInput.rx) handled)
    (hgood : ∀ q ∈ todo, q.Good cbits)
    (hpath : ∀ q ∈ todo, ∀ b p, lookupKey "path" (q.meaning fun x => unbits (cbits x)) = some (.arr b p) →
      p ≠ [] ∧ p ≠ [.text "tables"])
    (hboot : returns = true ∨ ∀ q ∈ todo, ¬IsMethod (q.meaning fun x => unbits (cbits x)) "bootloader")
    (hbet : ∀ i ∈ is, ∀ c, others c (i.between c))
    (hsz : ∀ i ∈ is, ∀ c, Sized (fun _ => 24) (fun _ => 24) c → Sized (fun _ => 24) (fun _ => 24) (i.between c))
    (hs : Sized (fun _ => 24) (fun _ => 24) s.c) (hev : ∀ i ∈ is, ∀ ev ∈ i.events, ev.type ≠ .none)
    (h : consoleRun cbor (readRequest unbits) bits returns rate version is s = .ok out) :
    ∃ ms ws, readAll cunbits out = some ms ∧ ofKind "response" ms = ws.map (Wire.seen fun x => cunbits (bits x)) ∧
      Exchange rate version others s.c ((todo.take handled.length).map (ClientReq.meaning fun x => unbits (cbits x))) ws ∧
      List.Forall₂ (fun req w => ∀ n : Int, lookupKey "id" req = some (.int n) → -2 ^ 31 ≤ n → n < 2 ^ 31 →
        w.entry "id" = some (.int n)) ((todo.take handled.length).map (ClientReq.meaning fun x => unbits (cbits x)))
        (ofKind "response" ms) := by
  obtain ⟨ws, h1, h2⟩ := C89_stream cunbits hev h
  have h3 := talk_exchange hv hr htr hin rfl rfl hgood hpath hboot hbet hsz rfl (hr s.c) hs h2
  refine ⟨_, _, h1, ofKind_seen _ _ _, h3, ?_⟩
  rw [ofKind_seen]
  exact exchange_ids _ h3

omit [FloatFmt] [LibM] in
theorem wires_heard (r : Fl → Fl) {x : Item} (h : x.isLeaf = true) : (Wire.seen r (Item.wire x)).item = heard r x := by
  cases x <;> first | rfl | cases h

omit [FloatFmt] [LibM] in
/-- What a client reads in the answer to a get or set. -/
theorem answer_entry (r : Fl → Fl) {req l : List Item} {x : Item} (hs : isStructure req = false)
    (hform : ∃ t, l = [.text "type", .text "response", .text "id", .int (requestId req)] ++
      (.text "response" :: t ++ reportSuccess true))
    (ha : lookupKey "response" l = some x) (hx : x.isLeaf = true) :
    (Wire.seen r (.map false (answerWires req l))).entry "response" = some (heard r x) := by
  obtain ⟨t, rfl⟩ := hform
  have : answerWires req ([.text "type", .text "response", .text "id", .int (requestId req)] ++
      (.text "response" :: t ++ reportSuccess true)) = Item.wires ([.text "type", .text "response", .text "id",
        .int (requestId req)] ++ (.text "response" :: t ++ reportSuccess true)) := by
    rw [answerWires, hs]; rfl
  rw [this, ← wires_heard r hx]
  cases t with
  | nil =>
    have : x = .text "success" := by
      simp [lookupKey, reportSuccess] at ha
      exact ha.symm
    rw [this]
    rfl
  | cons y t =>
    have : x = y := by
      simp [lookupKey] at ha
      exact ha.symm
    rw [this]
    simp [Item.wires, Item.wire, Wire.seen, Wire.seenAll, Wire.entry, Wire.items, Wire.item, lookupKey]

omit [FloatFmt] [LibM] in
theorem isMethod_plain {req : List Item} {m : String} (h : lookupKey "method" req = some (.text m)) (hm : m ≠ "structure") :
    isStructure req = false := by
  unfold isStructure
  rw [mapFind_eq, h]
  simp [itemIs, hm]

/-- Requests other than sets leave what they find. -/
theorem exchange_keep {others : Console → Console → Prop} {P : Console → Prop} (hP : ∀ a b, others a b → P a → P b)
    {rest : List (List Item)} : ∀ {reqs : List (List Item)} {c : Console} {ws : List Wire}, P c →
      (∀ q ∈ reqs, ¬IsMethod q "set") → Exchange rate version others c (reqs ++ rest) ws →
      ∃ ws1 ws2 c', ws = ws1 ++ ws2 ∧ ws1.length = reqs.length ∧ P c' ∧ Exchange rate version others c' rest ws2
  | [], c, ws, hc, _, h => ⟨[], ws, c, rfl, rfl, hc, h⟩
  | q :: reqs, c, ws, hc, hq, h => by
    cases h with
    | @cons _ c1 c2 _ l e _ ws ho h ht =>
      have h1 := hP _ _ ho hc
      have h2 : c2 = c1 := by
        by_contra hne
        exact hq q List.mem_cons_self ((C85_effects rate version _ h).2.2 hne)
      subst h2
      obtain ⟨ws1, ws2, c', rfl, h4, h5, h6⟩ := exchange_keep hP h1 (fun q hq' => hq q (List.mem_cons_of_mem _ hq')) ht
      exact ⟨_ :: ws1, ws2, c', rfl, by simp [h4], h5, h6⟩

/-- C90, settings: a client that sets a setting and later, after any requests but sets, gets it, reads the same value in
both answers: what the value sent means for that setting.  (Nothing else but the console may change that setting.) -/
theorem C90_read_back (hv : version.utf8ByteSize ≤ 255) {returns : Bool} {qs qg : ClientReq} {mid after : List ClientReq}
    {p : List Item} {f : Console → Option Item} (hn : Names p f) {x v : Item} (hleaf : v.isLeaf = true)
    (hset : IsSet (qs.meaning fun x => unbits (cbits x)) p v) (hget : IsGet (qg.meaning fun x => unbits (cbits x)) p)
    (hmid : ∀ q ∈ mid, ¬IsMethod (q.meaning fun x => unbits (cbits x)) "set")
    {is : List ConInput} {s : ConState} {handled : List (List Byte)} {out : List Byte}
    (hin : InTimeSince s.rx.buf s.rx.start ((qs :: mid ++ qg :: after).map (ClientReq.bytes cbits)) (is.map ConInput.rx) handled)
    (hall : mid.length + 2 ≤ handled.length) (hgood : ∀ q ∈ qs :: mid ++ qg :: after, q.Good cbits)
    (hpath : ∀ q ∈ qs :: mid ++ qg :: after, ∀ b p, lookupKey "path" (q.meaning fun x => unbits (cbits x)) = some (.arr b p) →
      p ≠ [] ∧ p ≠ [.text "tables"])
    (hboot : returns = true ∨
      ∀ q ∈ qs :: mid ++ qg :: after, ¬IsMethod (q.meaning fun x => unbits (cbits x)) "bootloader")
    (hbet : ∀ i ∈ is, ∀ c, f (i.between c) = f c ∧ (Loaded c → Loaded (i.between c)))
    (hsz : ∀ i ∈ is, ∀ c, Sized (fun _ => 24) (fun _ => 24) c → Sized (fun _ => 24) (fun _ => 24) (i.between c))
    (hs : Sized (fun _ => 24) (fun _ => 24) s.c) (hl : Loaded s.c) (hx : f s.c = some x)
    (hev : ∀ i ∈ is, ∀ ev ∈ i.events, ev.type ≠ .none)
    (h : consoleRun cbor (readRequest unbits) bits returns rate version is s = .ok out) :
    ∃ ms r a b, readAll cunbits out = some ms ∧ Stored x v r ∧ (ofKind "response" ms)[0]? = some a ∧
      (ofKind "response" ms)[mid.length + 1]? = some b ∧
      a.entry "response" = some (heard (fun x => cunbits (bits x)) r) ∧
      b.entry "response" = some (heard (fun x => cunbits (bits x)) r) := by
  obtain ⟨ms, ws, h1, h2, h3, -⟩ := C90_dialogue (cunbits := cunbits) hv
    (others := fun a b => f b = f a ∧ (Loaded a → Loaded b)) (fun _ => ⟨rfl, id⟩)
    (fun a b c h1 h2 => ⟨h2.1.trans h1.1, fun h => h2.2 (h1.2 h)⟩) hin hgood hpath hboot hbet hsz hs hev h
  have htake : ∃ rest, ((qs :: mid ++ qg :: after).take handled.length) = qs :: (mid ++ qg :: rest) := by
    obtain ⟨k, hk⟩ := Nat.exists_eq_add_of_le hall
    refine ⟨after.take k, ?_⟩
    rw [show handled.length = (mid.length + (k + 1)) + 1 by omega, List.cons_append,
      List.take_succ_cons, List.take_length_add_append, List.take_succ_cons]
  obtain ⟨rest, htake⟩ := htake
  rw [htake, List.map_cons, List.map_append, List.map_cons] at h3
  cases h3 with
  | @cons _ c1 c2 _ l e _ ws ho h4 ht =>
    have hl1 := ho.2 hl
    have hx1 : f c1 = some x := ho.1.trans hx
    have h4' := h4
    rw [process_set rate version _ hset] at h4'
    cases hreq : request (consoleTree rate version) true p (some v) c1 with
    | error e => rw [hreq] at h4'; cases h4'
    | ok w =>
      obtain ⟨c', t⟩ := w
      rw [hreq] at h4'
      cases h4'
      obtain ⟨full, h0, -⟩ := C50_get_partial rate version (Wire.items structureWires) hl1
      have hg := h0 _ (isGet_getReq _)
      have hd := dump_of_answers rate version _ hl1 (isGet_getReq _) hg
      have hf := named_dump rate version hl1 hd hn
      rw [hx1] at hf
      obtain ⟨r, rfl, hst, hrl, hl', -, hd'⟩ := set_leaf rate version hl1 hd hf (named_leaf hn c1 hx1) (.inl hleaf) hreq
      have hf' := named_dump rate version hl' hd' hn
      rw [follow_replace hf] at hf'
      obtain ⟨ws1, ws2, c3, rfl, hlen, ⟨hfr, hl3⟩, hex⟩ := exchange_keep (P := fun c => f c = some r ∧ Loaded c)
        (fun a b hab ha => ⟨hab.1.trans ha.1, hab.2 ha.2⟩) ⟨hf'.symm, hl'⟩
        (by
          intro q hq
          obtain ⟨q', hq', rfl⟩ := List.mem_map.mp hq
          exact hmid q' hq') ht
      cases hex with
      | @cons _ c4 c5 _ l2 e2 _ ws3 ho4 h5 ht5 =>
        have hl4 := ho4.2 hl3
        have hx4 : f c4 = some r := ho4.1.trans hfr
        obtain ⟨full4, h04, -⟩ := C50_get_partial rate version (Wire.items structureWires) hl4
        obtain ⟨l, hl5, hresp, -⟩ := (C84_get rate version _ hl4 hn (isGet_getReq _) (h04 _ (isGet_getReq _))).2 r hx4 _ hget
        rw [hl5] at h5
        cases h5
        rw [process_get rate version _ hget] at hl5
        refine ⟨ms, r, _, Wire.seen (fun x => cunbits (bits x))
          (.map false (answerWires (qg.meaning fun x => unbits (cbits x)) l2)), h1, hst, by rw [h2]; rfl, ?_, ?_, ?_⟩
        · rw [h2, List.map_cons, List.getElem?_cons_succ, List.map_append, List.getElem?_append_right (by simp [hlen])]
          simp only [List.length_map] at hlen
          simp only [List.length_map, hlen, Nat.sub_self]
          rfl
        · refine answer_entry _ (isMethod_plain hset.method (by decide)) ⟨[r], rfl⟩ (lookup_answer _ _).1 hrl
        · refine answer_entry _ (isMethod_plain hget.method (by decide)) ?_ hresp hrl
          split at hl5
          · cases hl5
          · cases hl5
            exact ⟨_, rfl⟩

/-- A client sets the decoder's offset to 12 and reads it: the requests. -/
def setOffset : ClientReq :=
  ⟨false, [.text "id", .num 7, .text "method", .text "set", .text "path", .arr true [.text "decoder", .text "offset"],
    .text "value", .num 12]⟩
def getOffset : ClientReq :=
  ⟨true, [.text "id", .num 8, .text "method", .text "get", .text "path", .arr false [.text "decoder", .text "offset"]]⟩

/-- A pass in which bytes arrive. -/
def bytesPass (vals : CalcValues) (got : List Byte) (t : Time) : ConInput :=
  { between := id, rx := { got := got, t0 := t, t1 := t, t2 := t }, events := [], vals := vals, now := t, now1 := t, now2 := t }

omit [FloatFmt] [LibM] in
theorem setOffset_good : setOffset.Good bits :=
  ⟨ok_of_okB _ (by decide), by simp [setOffset], by rw [ClientReq.bytes, wire_size]; decide⟩

omit [FloatFmt] [LibM] in
theorem getOffset_good : getOffset.Good bits :=
  ⟨ok_of_okB _ (by decide), by simp [getOffset], by rw [ClientReq.bytes, wire_size]; decide⟩

/-- A pass that is carried out. -/
theorem run_pass {L : CborLib} {parse : List Byte → List Item} {i : ConInput} {is : List ConInput} {s : ConState}
    {q : Option (List Byte)} {rx : Rx} {c : Console} (hq : processRx L s.rx i.rx = .ok (q, rx))
    (hp : match q with
      | none => c = i.between s.c
      | some m => ∃ l e, processRequest rate version (Wire.items structureWires) (parse m) (i.between s.c) = .ok (c, l, e))
    (hev : ∀ ev ∈ i.events, ev.type ≠ .none)
    (hrest : ∀ t, ∃ out, consoleRun L parse bits true rate version is ⟨c, rx, t⟩ = .ok out) :
    ∃ out, consoleRun L parse bits true rate version (i :: is) s = .ok out := by
  have hpass : ∃ o e, passRequest parse bits true rate version q (i.between s.c) = .ok (c, o, e) := by
    cases q with
    | none => cases hp; exact ⟨_, _, rfl⟩
    | some m =>
      obtain ⟨l, e, h⟩ := hp
      unfold passRequest rawRequest
      dsimp only
      rw [h]
      exact ⟨_, _, rfl⟩
  obtain ⟨o, e, hpass⟩ := hpass
  rw [consoleRun, consolePass, hq]
  dsimp only
  rw [hpass]
  dsimp only
  rw [if_neg (by simp), (events_sent bits hev).1]
  dsimp only
  obtain ⟨w, t, h6, -, -⟩ := feed_sent (bits := bits) i c s.lastDesc
  rw [h6]
  dsimp only
  obtain ⟨out, ho⟩ := hrest t
  rw [ho]
  exact ⟨_, rfl⟩

/-- The first request arrives in two parts, the second in one: both are answered, and the client reads 12 twice. -/
example (vals : CalcValues) :
    ∃ out ms a b, consoleRun cbor (readRequest unbits) bits true rate "1.0"
        [bytesPass vals ((setOffset.bytes cbits).take 9) 100, bytesPass vals ((setOffset.bytes cbits).drop 9) 500,
          bytesPass vals (getOffset.bytes cbits) 900] (conBoot dfltConsole) = .ok out ∧
      readAll cunbits out = some ms ∧ (ofKind "response" ms)[0]? = some a ∧ (ofKind "response" ms)[1]? = some b ∧
      a.entry "response" = some (.flt (cunbits (bits (FloatFmt.rnd 12)))) ∧
      b.entry "response" = some (.flt (cunbits (bits (FloatFmt.rnd 12)))) := by
  have hlen : (setOffset.bytes cbits).length = 45 := by rw [ClientReq.bytes, wire_size]; decide
  have hlen2 : (getOffset.bytes cbits).length = 38 := by rw [ClientReq.bytes, wire_size]; decide
  have hms : setOffset.meaning (fun x => unbits (cbits x)) = [.text "id", .int 7, .text "method", .text "set", .text "path",
      .arr true [.text "decoder", .text "offset"], .text "value", .int 12] := rfl
  have hmg : getOffset.meaning (fun x => unbits (cbits x)) = [.text "id", .int 8, .text "method", .text "get", .text "path",
      .arr false [.text "decoder", .text "offset"]] := rfl
  have hset : IsSet (setOffset.meaning fun x => unbits (cbits x)) [.text "decoder", .text "offset"] (.int 12) := by
    rw [hms]
    exact ⟨by simp [lookupKey], ⟨true, by simp [lookupKey]⟩, by simp [lookupKey]⟩
  have hget : IsGet (getOffset.meaning fun x => unbits (cbits x)) [.text "decoder", .text "offset"] := by
    rw [hmg]
    exact ⟨by simp [lookupKey], ⟨false, by simp [lookupKey]⟩⟩
  have hn : Names [.text "decoder", .text "offset"] fun c => some (.flt c.cfg.decoder.offset) :=
    .decoder (k := "offset") (f := fun c => .flt c.decoder.offset) List.mem_cons_self
  have hin : InTimeSince [] 0 ([setOffset, getOffset].map (ClientReq.bytes cbits))
      ([bytesPass vals ((setOffset.bytes cbits).take 9) 100, bytesPass vals ((setOffset.bytes cbits).drop 9) 500,
        bytesPass vals (getOffset.bytes cbits) 900].map ConInput.rx) [setOffset.bytes cbits, getOffset.bytes cbits] := by
    refine .wait ?_ ?_ (List.take_prefix _ _) ?_ ?_ (.handle (rest := []) ?_ ?_ (.handle (rest := []) ?_ ?_ (.done _ _ _)))
    · simp [Fits, bytesPass, rxCapacity, hlen]
    · intro h
      have := congrArg List.length h
      simp [bytesPass, hlen] at this
    · simp [bytesPass, hlen]
    · simp [bytesPass]
    · simp [Fits, bytesPass, rxCapacity, hlen]
    · simp [bytesPass]
    · simp [Fits, bytesPass, rxCapacity, hlen2]
    · simp [bytesPass]
  have hL : Loaded dfltConsole := dfltConsole_loaded
  obtain ⟨full, h0, -⟩ := C50_get_partial rate "1.0" (Wire.items structureWires) hL
  have hg := h0 _ (isGet_getReq _)
  have hf := (C84_get rate "1.0" _ hL hn (isGet_getReq _) hg).1
  obtain ⟨c', r, ha⟩ := C49_answered_partial rate "1.0" _ hL (isGet_getReq _) hg
    (not_pastLeaf hf) (by rintro ⟨r, h | h⟩ <;> simp at h) (v := .int 12) rfl hset
  obtain ⟨-, hL', -⟩ := C49_set_partial rate "1.0" _ hL (isGet_getReq _) hg hf rfl (Or.inl rfl) hset ha
  obtain ⟨l, ha, -, -⟩ := ha
  obtain ⟨full', h0', -⟩ := C50_get_partial rate "1.0" (Wire.items structureWires) hL'
  obtain ⟨l', ha', -, -⟩ := (C84_get rate "1.0" _ hL' hn (isGet_getReq _) (h0' _ (isGet_getReq _))).2 _ rfl _ hget
  have hrun : ∃ out, consoleRun cbor (readRequest unbits) bits true rate "1.0"
        [bytesPass vals ((setOffset.bytes cbits).take 9) 100, bytesPass vals ((setOffset.bytes cbits).drop 9) 500,
          bytesPass vals (getOffset.bytes cbits) 900] (conBoot dfltConsole) = .ok out := by
    refine run_pass (q := none) (c := dfltConsole) (processRx_wait (m := setOffset.bytes cbits) cbor_ok ?_
      (good_sendable setOffset_good) ?_ (List.take_prefix _ _) ?_ ?_) rfl (by simp [bytesPass]) fun t => ?_
    · simp [Fits, bytesPass, rxCapacity, hlen, conBoot, rxBoot]
    · intro h
      have := congrArg List.length h
      simp [bytesPass, conBoot, rxBoot, hlen] at this
    · simp [bytesPass, conBoot, rxBoot, hlen]
    · simp [bytesPass, rxStartTime, conBoot, rxBoot]
    refine run_pass (c := c') (processRx_request (m := setOffset.bytes cbits) (rest := []) cbor_ok ?_
      (good_sendable setOffset_good).1 ?_) ⟨l, .none, ?_⟩ (by simp [bytesPass]) fun t => ?_
    · simp [Fits, bytesPass, rxCapacity, hlen, conBoot, rxBoot]
    · simp [bytesPass, conBoot, rxBoot]
    · rw [readRequest_bytes (setOffset_good (bits := cbits)).ok]; exact ha
    refine run_pass (c := c') (processRx_request (m := getOffset.bytes cbits) (rest := []) cbor_ok ?_
      (good_sendable getOffset_good).1 ?_) ⟨l', .none, ?_⟩ (by simp [bytesPass]) fun t => ⟨_, rfl⟩
    · simp [Fits, bytesPass, rxCapacity, hlen2]
    · simp [bytesPass]
    · rw [readRequest_bytes (getOffset_good (bits := cbits)).ok]; exact ha'
  obtain ⟨out, hrun⟩ := hrun
  obtain ⟨ms, r, a, b, h1, h2, h3, h4, h5, h6⟩ := C90_read_back (cunbits := cunbits) (mid := []) (after := []) (by decide) hn
    (x := .flt dfltConsole.cfg.decoder.offset) rfl hset hget (by simp) hin (by simp)
    (by simp [setOffset_good, getOffset_good]) (by
      intro q hq b p hp
      simp only [List.cons_append, List.nil_append, List.mem_cons, List.not_mem_nil, or_false] at hq
      rcases hq with rfl | rfl
      · rw [hms] at hp; simp [lookupKey] at hp; rw [← hp.2]; simp
      · rw [hmg] at hp; simp [lookupKey] at hp; rw [← hp.2]; simp) (.inl rfl)
    (by
      intro i hi c
      simp only [List.mem_cons, List.not_mem_nil, or_false] at hi
      rcases hi with rfl | rfl | rfl <;> exact ⟨rfl, id⟩)
    (by
      intro i hi c
      simp only [List.mem_cons, List.not_mem_nil, or_false] at hi
      rcases hi with rfl | rfl | rfl <;> exact id) dfltConsole_sized hL rfl
    (by
      intro i hi
      simp only [List.mem_cons, List.not_mem_nil, or_false] at hi
      rcases hi with rfl | rfl | rfl <;> simp [bytesPass]) hrun
  have hr : r = .flt (FloatFmt.rnd 12) := h2 (by decide)
  subst hr
  exact ⟨out, ms, a, b, hrun, h1, h3, h4, h5, h6⟩

end
end Verif
