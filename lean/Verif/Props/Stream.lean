/-
C89: a client that reads the stream the console sends gets the console's messages.
-/
import Verif.Proofs.Whole
import Verif.Proofs.ReplyConsole
import Verif.Spec.Stream
import Verif.Props.Console
import Verif.Props.AnyRequest
import Verif.Props.Cuts

namespace Verif

theorem num32_size (x : BitVec 32) : Wire.size (.num x.toNat) ≤ 5 := by
  simp only [Wire.size]
  apply headSize_le
  have := x.isLt
  split <;> omega

theorem num32_ok (x : BitVec 32) : (Wire.num x.toNat).Ok := by
  have := x.isLt
  simp only [Wire.Ok]
  omega

/-- Can be encoded, in at most `k` bytes. -/
def FitsIn (w : Wire) (k : Nat) : Prop := w.Ok ∧ w.size ≤ k

/-- The same for items one after the other. -/
def FitIn (l : List Wire) (k : Nat) : Prop := Wire.OkAll l ∧ Wire.sizes l ≤ k

theorem fitIn_nil : FitIn [] 0 := ⟨trivial, Nat.le_refl 0⟩

theorem fitIn_cons {w : Wire} {l : List Wire} {a b : Nat} (h : FitsIn w a) (h' : FitIn l b) : FitIn (w :: l) (a + b) :=
  ⟨⟨h.1, h'.1⟩, by have h1 := h.2; have h2 := h'.2; rw [Wire.sizes]; omega⟩

theorem fitsIn_num (x : BitVec 32) : FitsIn (.num x.toNat) 5 := ⟨num32_ok x, num32_size x⟩

theorem fitsIn_text (s : String) (h : Wire.okB (.text s) = true ∧ (Wire.text s).size ≤ 12) : FitsIn (.text s) 12 :=
  ⟨ok_of_okB _ h.1, h.2⟩

theorem fitsIn_map {l : List Wire} {k : Nat} (h : FitIn l k) (hl : l.length < 24 ∧ l.length % 2 = 0) :
    FitsIn (.map true l) (1 + k) := by
  refine ⟨⟨by omega, hl.2, h.1⟩, ?_⟩
  have h1 := h.2
  rw [Wire.size, if_pos rfl, headSize, if_pos (by omega)]
  omega

theorem fitsIn_arr {l : List Item} {k : Nat} (h : Item.WholeAll l) (hk : Item.sizes l ≤ k) (hk' : k < 2 ^ 64) :
    FitsIn (.arr false (Item.wires l)) (2 + k) := by
  have h1 := length_le_sizes l
  refine ⟨⟨?_, whole_okAll l h (by omega)⟩, ?_⟩
  · rw [wires_length]; omega
  · rw [Wire.size, wires_size]
    simp; omega

theorem event_fits {ev : LogEvent} (h : ev.type ≠ .none) : FitsIn (eventWire ev) 150 := by
  obtain ⟨time, seq, type, value⟩ := ev
  have t : ∀ s, Wire.okB (.text s) = true ∧ (Wire.text s).size ≤ 12 → FitsIn (.text s) 12 := fitsIn_text
  have key : ∀ a b, Wire.okB (.text a) = true ∧ (Wire.text a).size ≤ 12 →
      Wire.okB (.text b) = true ∧ (Wire.text b).size ≤ 12 →
      FitsIn (.map true [.text "type", .text "event", .text "time", .num time.toNat, .text "seq", .num seq.toNat,
        .text "event", .map true [.text "type", .text a, .text b, .num value.toNat]]) 150 := by
    intro a b ha hb
    have h1 := fitsIn_map (fitIn_cons (t "type" (by decide)) (fitIn_cons (t a ha) (fitIn_cons (t b hb)
      (fitIn_cons (fitsIn_num value) fitIn_nil)))) ⟨by simp, by simp⟩
    have h2 := fitsIn_map (fitIn_cons (t "type" (by decide)) (fitIn_cons (t "event" (by decide))
      (fitIn_cons (t "time" (by decide)) (fitIn_cons (fitsIn_num time) (fitIn_cons (t "seq" (by decide))
      (fitIn_cons (fitsIn_num seq) (fitIn_cons (t "event" (by decide)) (fitIn_cons h1 fitIn_nil))))))))
      ⟨by simp, by simp⟩
    exact ⟨h2.1, Nat.le_trans h2.2 (by omega)⟩
  cases type with
  | none => exact absurd rfl h
  | output => exact key "output" "outputs" (by decide) (by decide)
  | gpio => exact key "gpio" "outputs" (by decide) (by decide)
  | trigger => exact key "trigger" "pin" (by decide) (by decide)

/-- A description or a feed message. -/
theorem report_fits {now : Time} {a b : String} {l : List Item} {k : Nat}
    (ha : Wire.okB (.text a) = true ∧ (Wire.text a).size ≤ 12) (hb : Wire.okB (.text b) = true ∧ (Wire.text b).size ≤ 12)
    (h : Item.WholeAll l) (hk : Item.sizes l ≤ k) (hk' : k < 2 ^ 64) :
    FitsIn (.map true [.text "type", .text a, .text "time", .num now.toNat, .text b, .arr false (Item.wires l)])
      (60 + k) := by
  have h2 := fitsIn_map (fitIn_cons (fitsIn_text "type" (by decide)) (fitIn_cons (fitsIn_text a ha)
      (fitIn_cons (fitsIn_text "time" (by decide)) (fitIn_cons (fitsIn_num now) (fitIn_cons (fitsIn_text b hb)
      (fitIn_cons (fitsIn_arr h hk hk') fitIn_nil)))))) ⟨by simp, by simp⟩
  exact ⟨h2.1, Nat.le_trans h2.2 (by omega)⟩

/-- The keys of the feed. -/
def feedKeyItems : List Item := feedNodes.filterMap fun n => n.id.map Item.text

theorem keys_fit : feedKeys feedNodes = .ok feedKeyItems ∧ Item.WholeAll feedKeyItems ∧ Item.sizes feedKeyItems ≤ 1000 :=
  ⟨rfl, by simp [feedKeyItems, feedNodes, Item.WholeAll, Item.Whole], by decide +kernel⟩

theorem feedValue_fit {σ : Type} (n : FeedNode σ) (s : σ) : (feedValue n s).Whole ∧ (feedValue n s).size ≤ 8 := by
  have hu : ∀ x : BitVec 32, (Item.int x.toNat).Whole ∧ (Item.int x.toNat).size ≤ 8 := fun x =>
    ⟨num32_ok x, Nat.le_trans (num32_size x) (by omega)⟩
  unfold feedValue
  split
  · exact hu _
  · exact ⟨trivial, by simp [Item.size]⟩
  · exact hu _
  · exact ⟨trivial, by simp [Item.size]⟩
  · exact ⟨trivial, by decide⟩

theorem feedValues_fit {σ : Type} (s : σ) : ∀ (nodes : List (FeedNode σ)) {ks : List Item}, feedKeys nodes = .ok ks →
    ∃ vs, feedValues s nodes = .ok vs ∧ Item.WholeAll vs ∧ Item.sizes vs ≤ 8 * nodes.length
  | [], ks, h => by cases h
  | n :: rest, ks, h => by
    rw [feedKeys] at h
    rw [feedValues]
    cases hid : n.id with
    | none => exact ⟨[], rfl, trivial, by simp [Item.sizes]⟩
    | some id =>
      rw [hid] at h
      dsimp only at h ⊢
      cases hk : feedKeys rest with
      | error e => rw [hk] at h; cases h
      | ok ks' =>
        obtain ⟨vs, h1, h2, h3⟩ := feedValues_fit s rest hk
        obtain ⟨h4, h5⟩ := feedValue_fit n s
        rw [h1]
        refine ⟨_, rfl, ⟨h4, h2⟩, ?_⟩
        simp only [Item.sizes, List.length_cons]
        omega


theorem send_fits (bits : Fl → BitVec 32) {w : Wire} {k : Nat} (h : FitsIn w k) (hk : k ≤ 16384) :
    sendMessage bits w = .ok (w.bytes bits) := by
  refine sendMessage_eq bits ?_
  have := h.2
  rw [wire_size, txCapacity]
  omega

theorem bytesAll_append (bits : Fl → BitVec 32) (a b : List Wire) :
    Wire.bytesAll bits (a ++ b) = Wire.bytesAll bits a ++ Wire.bytesAll bits b := by
  induction a with
  | nil => rfl
  | cons w a ih => simp [Wire.bytesAll, ih]

theorem events_sent (bits : Fl → BitVec 32) : ∀ {evs : List LogEvent}, (∀ ev ∈ evs, ev.type ≠ .none) →
    sendEvents bits evs = .ok (Wire.bytesAll bits (evs.map eventWire)) ∧ Wire.OkAll (evs.map eventWire)
  | [], _ => ⟨rfl, trivial⟩
  | ev :: evs, h => by
    obtain ⟨h1, h2⟩ := events_sent bits fun e he => h e (List.mem_cons_of_mem ev he)
    have h3 := event_fits (h ev List.mem_cons_self)
    refine ⟨?_, h3.1, h2⟩
    rw [sendEvents, send_fits bits h3 (by omega), h1]
    rfl

section
variable [FloatFmt] [LibM] {L : CborLib} {parse : List Byte → List Item} {bits : Fl → BitVec 32} {returns : Bool}
  {rate : BitVec 32} {version : String}

omit [LibM] in
theorem hundredMs : timeFromUs 100000 = .ok (400000 : BitVec 32) := by
  have := timeFromUs_eq (us := (100000 : BitVec 32)) (by decide)
  rw [this]
  rfl

omit [LibM] in
theorem feed_sent (i : ConInput) (c : Console) (last : Time) :
    ∃ w t, passFeed bits i c last = .ok (w.bytes bits, t) ∧ Reports i c last w t ∧ w.Ok := by
  unfold passFeed
  rw [hundredMs]
  dsimp only
  obtain ⟨hk, hk1, hk2⟩ := keys_fit
  split
  · rename_i ht
    have hf := report_fits (now := i.now1) (a := "description") (b := "keys") (by decide) (by decide) hk1 hk2 (by omega)
    refine ⟨_, i.now2, ?_, .description ht hk, hf.1⟩
    unfold descriptionWire
    rw [hk]
    dsimp only
    rw [send_fits bits hf (by omega)]
  · rename_i ht
    obtain ⟨vs, hv, hv1, hv2⟩ := feedValues_fit (⟨c.cfg, i.vals, i.now1⟩ : FeedState) feedNodes hk
    have hl : feedNodes.length = 37 := rfl
    rw [hl] at hv2
    have hf := report_fits (now := i.now1) (a := "feed") (b := "values") (by decide) (by decide) hv1 hv2 (by omega)
    refine ⟨_, last, ?_, .feed (Nat.le_of_not_lt ht) hv, hf.1⟩
    unfold feedWire
    rw [hv]
    dsimp only
    rw [send_fits bits hf (by omega)]

/-- What a request makes the console send. -/
theorem request_sent {q : Option (List Byte)} {c c' : Console} {out : List Byte} {e : Effect}
    (h : passRequest parse bits returns rate version q c = .ok (c', out, e)) :
    (∃ m l, q = some m ∧ returns = false ∧ e = .bootloader ∧ out = [] ∧
      processRequest rate version (Wire.items structureWires) (parse m) c = .ok (c', l, .bootloader)) ∨
    (returns = true ∨ e ≠ .bootloader) ∧ ∃ reply, Replies parse rate version Wire.size q c c' reply e ∧
      out = Wire.bytesAll bits reply ∧ Wire.OkAll reply := by
  unfold passRequest at h
  cases q with
  | none =>
    cases h
    exact .inr ⟨.inr (by decide), [], .none c, rfl, trivial⟩
  | some m =>
    dsimp only at h
    unfold rawRequest at h
    cases hp : processRequest rate version (Wire.items structureWires) (parse m) c with
    | error f => rw [hp] at h; cases h
    | ok x =>
      obtain ⟨c1, l, e1⟩ := x
      rw [hp] at h
      dsimp only at h
      have h' := Except.ok.inj h
      have hc : c1 = c' := congrArg (fun x => x.1) h'
      have ho : _ = out := congrArg (fun x => x.2.1) h'
      have he : e1 = e := congrArg (fun x => x.2.2) h'
      subst hc he
      dsimp only at ho
      by_cases hb : returns = true ∨ e1 ≠ .bootloader
      · right
        refine ⟨hb, ?_⟩
        rw [if_neg (by
          rcases hb with hb | hb
          · simp [hb]
          · simp [hb]), sendReply_eq] at ho
        by_cases hs : (Wire.bytes bits (.map false (answerWires (parse m) l))).length ≤ txCapacity
        · rw [if_pos hs] at ho
          refine ⟨_, .said hp (by rw [← wire_size bits]; exact hs), ?_, answer_ok rate version hp hs, trivial⟩
          rw [← ho]
          simp [Wire.bytesAll]
        · rw [if_neg hs] at ho
          refine ⟨_, .unsaid hp (by rw [← wire_size bits]; exact Nat.lt_of_not_le hs), ?_, trivial⟩
          rw [← ho]
          rfl
      · left
        rw [not_or, not_not] at hb
        have hr : returns = false := by simpa using hb.1
        obtain ⟨-, rfl⟩ := hb
        rw [if_pos (by simp [hr])] at ho
        exact ⟨m, l, rfl, hr, rfl, ho.symm, hp⟩

/-- All bytes sent are the encodings of what the console says. -/
theorem run_sent : ∀ {is : List ConInput} {s : ConState} {out : List Byte},
    (∀ i ∈ is, ∀ ev ∈ i.events, ev.type ≠ .none) → consoleRun L parse bits returns rate version is s = .ok out →
    ∃ ws, Talk parse returns rate version L Wire.size is s ws ∧ out = Wire.bytesAll bits ws ∧ Wire.OkAll ws
  | [], s, out, _, h => by
    cases h
    exact ⟨[], .done s, rfl, trivial⟩
  | i :: is, s, out, hev, h => by
    rw [consoleRun, consolePass] at h
    cases hq : processRx L s.rx i.rx with
    | error e => rw [hq] at h; cases h
    | ok x =>
      obtain ⟨q, rx⟩ := x
      rw [hq] at h
      dsimp only at h
      cases hp : passRequest parse bits returns rate version q (i.between s.c) with
      | error e => rw [hp] at h; cases h
      | ok x =>
        obtain ⟨c, o, e⟩ := x
        rw [hp] at h
        dsimp only at h
        rcases request_sent hp with ⟨m, l, rfl, hr, rfl, rfl, hreq⟩ | ⟨he, reply, h1, h2, h3⟩
        · rw [if_pos (by simp [hr])] at h
          cases h
          exact ⟨[], .boot hq hr hreq, rfl, trivial⟩
        · rw [if_neg (by rcases he with he | he <;> simp [he])] at h
          obtain ⟨h4, h5⟩ := events_sent bits (hev i List.mem_cons_self)
          obtain ⟨w, t, h6, h7, h8⟩ := feed_sent (bits := bits) i c s.lastDesc
          rw [h4] at h
          dsimp only at h
          rw [h6] at h
          dsimp only at h
          cases hrun : consoleRun L parse bits returns rate version is ⟨c, rx, t⟩ with
          | error e => rw [hrun] at h; cases h
          | ok rest =>
            rw [hrun] at h
            obtain ⟨ws, h9, h10, h11⟩ := run_sent (fun j hj => hev j (List.mem_cons_of_mem i hj)) hrun
            refine ⟨_, .pass hq h1 he h7 h9, ?_, ?_⟩
            · rw [← Except.ok.inj h, h2, h10]
              simp [bytesAll_append, Wire.bytesAll]
            · simp only [okAll_append]
              exact ⟨⟨⟨h3, h5⟩, h8, trivial⟩, h11⟩

/-- C89: a client that reads all the console has sent gets exactly the console's messages, whole and in order: for each
pass the answer to the request that was complete, the events, and a description or a feed message.  (Of a float it gets
what the 32 bits sent for it mean.) -/
theorem C89_stream (unbits : BitVec 32 → Fl) {is : List ConInput} {s : ConState} {out : List Byte}
    (hev : ∀ i ∈ is, ∀ ev ∈ i.events, ev.type ≠ .none)
    (h : consoleRun L parse bits returns rate version is s = .ok out) :
    ∃ ws, readAll unbits out = some (Wire.seenAll (fun x => unbits (bits x)) ws) ∧
      Talk parse returns rate version L (fun w => (w.bytes bits).length) is s ws := by
  obtain ⟨ws, h1, rfl, h3⟩ := run_sent hev h
  refine ⟨ws, readAll_bytes h3, ?_⟩
  have : (fun w => (w.bytes bits).length) = Wire.size := funext fun w => wire_size bits w
  rw [this]
  exact h1

omit [FloatFmt] [LibM] in
theorem seenAll_map (r : Fl → Fl) (l : List Wire) : Wire.seenAll r l = l.map (Wire.seen r) := by
  induction l with
  | nil => rfl
  | cons w l ih => simp [Wire.seenAll, ih]

omit [FloatFmt] [LibM] in
theorem kind_seen (r : Fl → Fl) (w : Wire) : (w.seen r).kind = w.kind := by
  cases w with
  | map d l =>
    match l with
    | [] => rfl
    | [a] => cases a <;> rfl
    | a :: b :: l => cases a <;> cases b <;> rfl
  | _ => rfl

omit [FloatFmt] [LibM] in
theorem event_seen (r : Fl → Fl) (ev : LogEvent) : (eventWire ev).seen r = eventWire ev := by
  obtain ⟨time, seq, type, value⟩ := ev
  cases type <;> rfl

omit [FloatFmt] [LibM] in
theorem event_kind (ev : LogEvent) : (eventWire ev).kind = some "event" := by
  obtain ⟨time, seq, type, value⟩ := ev
  cases type <;> rfl

theorem answer_kind {req l : List Item} {c c' : Console} {e : Effect}
    (h : processRequest rate version (Wire.items structureWires) req c = .ok (c', l, e)) :
    (Wire.map false (answerWires req l)).kind = some "response" := by
  unfold answerWires
  split
  · rfl
  · unfold processRequest at h
    dsimp only at h
    repeat' split at h
    all_goals first | (cases h; rfl) | (cases h; done)

theorem reply_kind {size : Wire → Nat} {q : Option (List Byte)} {c c' : Console} {reply : List Wire} {e : Effect}
    (h : Replies parse rate version size q c c' reply e) : reply.length ≤ q.toList.length ∧
      ∀ w ∈ reply, w.kind = some "response" := by
  cases h with
  | none => simp
  | said h _ =>
    refine ⟨by simp, fun w hw => ?_⟩
    rw [List.mem_singleton.mp hw]
    exact answer_kind h
  | unsaid => simp

omit [FloatFmt] [LibM] in
theorem report_kind {i : ConInput} {c : Console} {last t : Time} {w : Wire} (h : Reports i c last w t) :
    w.kind = some "description" ∨ w.kind = some "feed" := by
  cases h
  · exact .inl rfl
  · exact .inr rfl

/-- The messages of one kind. -/
def ofKind (k : String) (l : List Wire) : List Wire := l.filter fun w => w.kind == some k

omit [FloatFmt] [LibM] in
theorem ofKind_append (k : String) (a b : List Wire) : ofKind k (a ++ b) = ofKind k a ++ ofKind k b :=
  List.filter_append ..

omit [FloatFmt] [LibM] in
theorem ofKind_none {k j : String} (hkj : j ≠ k) {l : List Wire} (h : ∀ w ∈ l, w.kind = some j) : ofKind k l = [] := by
  rw [ofKind, List.filter_eq_nil_iff]
  intro w hw
  simp [h w hw, hkj]

omit [FloatFmt] [LibM] in
theorem ofKind_all {k : String} {l : List Wire} (h : ∀ w ∈ l, w.kind = some k) : ofKind k l = l := by
  rw [ofKind, List.filter_eq_self]
  intro w hw
  simp [h w hw]

omit [FloatFmt] [LibM] in
theorem ofKind_seen (r : Fl → Fl) (k : String) (l : List Wire) :
    ofKind k (Wire.seenAll r l) = (ofKind k l).map (Wire.seen r) := by
  rw [seenAll_map, ofKind, List.filter_map]
  congr 1
  exact List.filter_congr fun w _ => by simp [kind_seen]

/-- What the messages are, pass by pass. -/
theorem talk_kinds {size : Wire → Nat} {is : List ConInput} {s : ConState} {ws : List Wire}
    (h : Talk parse returns rate version L size is s ws) :
    (∀ w ∈ ws, w.kind = some "response" ∨ w.kind = some "event" ∨ w.kind = some "description" ∨ w.kind = some "feed") ∧
    (ofKind "event" ws <+: (is.flatMap ConInput.events).map eventWire) ∧
    ((ofKind "response" ws).length ≤ is.length) ∧
    ((ofKind "description" ws).length + (ofKind "feed" ws).length ≤ is.length) ∧
    (returns = true → ofKind "event" ws = (is.flatMap ConInput.events).map eventWire ∧
      (ofKind "description" ws).length + (ofKind "feed" ws).length = is.length) := by
  induction h with
  | done => simp [ofKind]
  | boot hq hr h => simp [ofKind, hr]
  | @pass i is s q rx c reply e w t ws hq hr he hw hs ih =>
    obtain ⟨i1, i2, i3, i4, i5⟩ := ih
    obtain ⟨r1, r2⟩ := reply_kind hr
    have hev : ∀ w ∈ i.events.map eventWire, w.kind = some "event" := by
      intro w hw
      obtain ⟨ev, -, rfl⟩ := List.mem_map.mp hw
      exact event_kind ev
    have e1 : ofKind "event" [w] = [] := by
      rcases report_kind hw with h | h <;> simp [ofKind, h]
    have e2 : ofKind "response" [w] = [] := by
      rcases report_kind hw with h | h <;> simp [ofKind, h]
    have e3 : (ofKind "description" [w]).length + (ofKind "feed" [w]).length = 1 := by
      rcases report_kind hw with h | h <;> simp [ofKind, h]
    have hlen : reply.length ≤ 1 := by
      cases q
      · simpa using Nat.le_trans r1 (by simp)
      · simpa using r1
    simp only [ofKind_append, ofKind_none (k := "event") (j := "response") (by decide) r2, ofKind_all hev, e1,
      ofKind_all r2, ofKind_none (k := "response") (j := "event") (by decide) hev, e2,
      ofKind_none (k := "description") (j := "response") (by decide) r2,
      ofKind_none (k := "description") (j := "event") (by decide) hev,
      ofKind_none (k := "feed") (j := "response") (by decide) r2,
      ofKind_none (k := "feed") (j := "event") (by decide) hev, List.flatMap_cons, List.map_append, List.nil_append,
      List.append_nil, List.length_append, List.length_cons]
    refine ⟨?_, ?_, by omega, by omega, fun hret => ⟨?_, ?_⟩⟩
    · intro v hv
      simp only [List.mem_append, List.mem_singleton] at hv
      rcases hv with ((hv | hv) | hv) | hv
      · exact .inl (r2 v hv)
      · exact .inr (.inl (hev v hv))
      · rw [hv]; exact .inr (.inr (report_kind hw))
      · exact i1 v hv
    · rwa [List.prefix_append_right_inj]
    · rw [(i5 hret).1]
    · have := (i5 hret).2
      omega

/-- C89, what a client sees: every message it reads is an answer, an event, a description or a feed message.  The event
messages are the events, in their order; on a platform that comes back from the bootloader, all of them.  There is at most
one answer for each pass, and one description or feed message. -/
theorem C89_messages (unbits : BitVec 32 → Fl) {is : List ConInput} {s : ConState} {out : List Byte}
    (hev : ∀ i ∈ is, ∀ ev ∈ i.events, ev.type ≠ .none)
    (h : consoleRun L parse bits returns rate version is s = .ok out) :
    ∃ ms, readAll unbits out = some ms ∧
      (∀ w ∈ ms, w.kind = some "response" ∨ w.kind = some "event" ∨ w.kind = some "description" ∨
        w.kind = some "feed") ∧
      (ofKind "event" ms <+: (is.flatMap ConInput.events).map eventWire) ∧
      ((ofKind "response" ms).length ≤ is.length) ∧
      ((ofKind "description" ms).length + (ofKind "feed" ms).length ≤ is.length) ∧
      (returns = true → ofKind "event" ms = (is.flatMap ConInput.events).map eventWire ∧
        (ofKind "description" ms).length + (ofKind "feed" ms).length = is.length) := by
  obtain ⟨ws, h1, h2⟩ := C89_stream unbits hev h
  obtain ⟨i1, i2, i3, i4, i5⟩ := talk_kinds h2
  have hmap : ∀ l : List LogEvent, (l.map eventWire).map (Wire.seen fun x => unbits (bits x)) = l.map eventWire := by
    intro l
    rw [List.map_map]
    exact List.map_congr_left fun ev _ => event_seen _ ev
  refine ⟨_, h1, ?_, ?_, ?_, ?_, fun hr => ⟨?_, ?_⟩⟩
  · intro w hw
    rw [seenAll_map] at hw
    obtain ⟨v, hv, rfl⟩ := List.mem_map.mp hw
    rw [kind_seen]
    exact i1 v hv
  · rw [ofKind_seen, ← hmap]
    exact i2.map _
  · rw [ofKind_seen, List.length_map]; exact i3
  · rw [ofKind_seen, ofKind_seen, List.length_map, List.length_map]; exact i4
  · rw [ofKind_seen, (i5 hr).1, hmap]
  · rw [ofKind_seen, ofKind_seen, List.length_map, List.length_map]; exact (i5 hr).2

/-- The console itself never stops: with all tables there, and whatever is received, every pass is carried out, unless a
set below a knock sensor makes a conversion that C does not define (see C49). -/
theorem C89_goes_on (hL : L.Ok) : ∀ {is : List ConInput} {s : ConState}, Loaded s.c → s.rx.buf.length ≤ rxCapacity →
    FitsAll L s.rx (is.map ConInput.rx) → (∀ i ∈ is, ∀ ev ∈ i.events, ev.type ≠ .none) →
    (∀ i ∈ is, ∀ c, Loaded c → Loaded (i.between c)) →
    (∃ out, consoleRun L parse bits returns rate version is s = .ok out) ∨
      consoleRun L parse bits returns rate version is s = .error .floatToInt
  | [], s, _, _, _, _, _ => .inl ⟨[], rfl⟩
  | i :: is, s, hc, hb, hf, hev, hbt => by
    obtain ⟨q, rx, segs, hq, hb', -, -⟩ := processRx_spec hL hf.1 hb
    have hf' := hf.2 q rx hq
    have hc' := hbt i List.mem_cons_self _ hc
    rw [consoleRun, consolePass, hq]
    dsimp only
    have hreq : passRequest parse bits returns rate version q (i.between s.c) = .error .floatToInt ∨
        ∃ c o e, passRequest parse bits returns rate version q (i.between s.c) = .ok (c, o, e) ∧ Loaded c := by
      cases q with
      | none => exact .inr ⟨_, _, _, rfl, hc'⟩
      | some m =>
        have h1 := process_any rate version (Wire.items structureWires) hc' (parse m)
        unfold passRequest rawRequest
        dsimp only
        cases hp : processRequest rate version (Wire.items structureWires) (parse m) (i.between s.c) with
        | error e =>
          rw [hp] at h1
          left
          have : e = .floatToInt := h1
          rw [this]
        | ok x =>
          rw [hp] at h1
          exact .inr ⟨_, _, _, rfl, h1.1⟩
    rcases hreq with hreq | ⟨c, o, e, hreq, hl⟩
    · right
      rw [hreq]
    · rw [hreq]
      dsimp only
      by_cases hboot : (decide (e = Effect.bootloader) && !returns) = true
      · rw [if_pos hboot]
        exact .inl ⟨_, rfl⟩
      · rw [if_neg hboot]
        obtain ⟨h4, h5⟩ := events_sent bits (hev i List.mem_cons_self)
        obtain ⟨w, t, h6, h7, h8⟩ := feed_sent (bits := bits) i c s.lastDesc
        rw [h4]
        dsimp only
        rw [h6]
        dsimp only
        rcases C89_goes_on hL (is := is) (s := ⟨c, rx, t⟩) hl hb' hf' (fun j hj => hev j (List.mem_cons_of_mem i hj))
          (fun j hj => hbt j (List.mem_cons_of_mem i hj)) with ⟨rest, h9⟩ | h9
        · rw [h9]
          exact .inl ⟨_, rfl⟩
        · rw [h9]
          exact .inr rfl

/-! ### The hypotheses are met -/

/-- A pass in which a request arrives and a trigger event is in the log. -/
def pingPass (vals : CalcValues) : ConInput :=
  { between := id, rx := { got := [0xa0], t0 := 0, t1 := 0, t2 := 0 }, events := [⟨5, 1, .trigger, 0⟩], vals := vals,
    now := 10, now1 := 10, now2 := 10 }

/-- Such a pass is carried out, and the client reads an answer, an event and a feed message. -/
example (unbits : BitVec 32 → Fl) (vals : CalcValues) :
    ∃ out ms, consoleRun cbor (fun _ => [.text "method", .text "ping"]) bits true rate version [pingPass vals]
        (conBoot dfltConsole) = .ok out ∧ readAll unbits out = some ms ∧
      ofKind "event" ms = [eventWire ⟨5, 1, .trigger, 0⟩] ∧
      (ofKind "description" ms).length + (ofKind "feed" ms).length = 1 := by
  have hev : ∀ i ∈ [pingPass vals], ∀ ev ∈ i.events, ev.type ≠ .none := by
    intro i hi ev he
    rw [List.mem_singleton.mp hi] at he
    rw [List.mem_singleton.mp he]
    decide
  have hrx : processRx cbor rxBoot (pingPass vals).rx = .ok (some [0xa0], ⟨[], 0⟩) :=
    processRx_request cbor_ok (Nat.le_of_ble_eq_true rfl) (c48_sendable _ (by simp [c48Requests])).1 rfl
  have hrun : ∃ out, consoleRun cbor (fun _ => [.text "method", .text "ping"]) bits true rate version [pingPass vals]
      (conBoot dfltConsole) = .ok out := by
    rw [consoleRun, consolePass]
    rw [show (conBoot dfltConsole).rx = rxBoot from rfl, hrx]
    dsimp only
    have hp : processRequest rate version (Wire.items structureWires) [.text "method", .text "ping"]
        ((pingPass vals).between (conBoot dfltConsole).c) = .ok (dfltConsole, [.text "type", .text "response",
          .text "id", .int (-1), .text "response", .text "pong", .text "success", .bool true], .none) := rfl
    unfold passRequest rawRequest
    dsimp only
    rw [hp]
    dsimp only
    rw [if_neg (by decide)]
    rw [(events_sent bits (hev _ List.mem_cons_self)).1]
    dsimp only
    obtain ⟨w, t, h6, -, -⟩ := feed_sent (bits := bits) (pingPass vals) dfltConsole (conBoot dfltConsole).lastDesc
    rw [h6]
    exact ⟨_, rfl⟩
  obtain ⟨out, hrun⟩ := hrun
  obtain ⟨ms, h1, -, -, -, -, h2⟩ := C89_messages unbits hev hrun
  exact ⟨out, ms, hrun, h1, (h2 rfl).1, (h2 rfl).2⟩

/-- The console starts as C89 wants it. -/
example (vals : CalcValues) : Loaded (conBoot dfltConsole).c ∧ (conBoot dfltConsole).rx.buf.length ≤ rxCapacity ∧
    FitsAll cbor (conBoot dfltConsole).rx ([pingPass vals].map ConInput.rx) :=
  ⟨dfltConsole_loaded, Nat.le_of_ble_eq_true rfl, Nat.le_of_ble_eq_true rfl, fun _ _ _ => trivial⟩

end

end Verif
