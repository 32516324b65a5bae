/-
C47: messages are sent completely and in order.  C48: the receive buffer.  C53: half-precision values.
-/
import Verif.Spec.Console
import Mathlib.Data.Nat.Bitwise
import Verif.Proofs.Cbor
import Verif.Props.Cuts

namespace Verif

/-! ## C47 -/

theorem tx_inv (msg : List Byte) (accept : Nat → Nat) (k : Nat) :
    (txRun msg accept k).sent = msg.take (txRun msg accept k).pos ∧
      (txRun msg accept k).pos + (txRun msg accept k).remaining = msg.length := by
  induction k with
  | zero => exact ⟨by simp [txRun, txStart], by simp [txRun, txStart]⟩
  | succ k ih =>
    obtain ⟨h1, h2⟩ := ih
    unfold txRun
    dsimp only
    generalize txRun msg accept k = s at *
    split
    · exact ⟨h1, h2⟩
    · unfold txTurn
      dsimp only
      split
      · refine ⟨?_, by dsimp only; omega⟩
        dsimp only
        rw [h1, List.take_add]
      · rename_i hw
        obtain h0 : min (accept k) s.remaining = 0 := by omega
        rw [h0]
        simpa using ⟨h1, h2⟩

/-- C47: at every moment, the bytes taken by the transport are the beginning of the message; the loop has ended exactly when
they are the whole message.  The transport may take any number of bytes, also none, at each call. -/
theorem C47_in_order (msg : List Byte) (accept : Nat → Nat) (k : Nat) :
    (txRun msg accept k).sent <+: msg ∧ ((txRun msg accept k).remaining = 0 ↔ (txRun msg accept k).sent = msg) := by
  obtain ⟨h1, h2⟩ := tx_inv msg accept k
  refine ⟨h1 ▸ List.take_prefix _ _, fun h => ?_, fun h => ?_⟩
  · rw [h1, List.take_of_length_le (by omega)]
  · have := congrArg List.length h
    rw [h1, List.length_take] at this
    omega

/-- C47: if the transport keeps taking bytes, every message is sent completely, after finitely many turns, and no turn after
that sends more. -/
theorem C47_completes (msg : List Byte) (accept : Nat → Nat) (h : ∀ n, ∃ m, n ≤ m ∧ 0 < accept m) :
    ∃ K, ∀ k, K ≤ k → (txRun msg accept k).sent = msg ∧ (txRun msg accept k).remaining = 0 := by
  -- what remains never grows, and shrinks at every turn at which the transport takes something
  have hstep : ∀ k, (txRun msg accept (k + 1)).remaining ≤ (txRun msg accept k).remaining := by
    intro k
    rw [txRun]
    split
    · exact le_refl _
    · unfold txTurn; dsimp only; split <;> dsimp only <;> omega
  have hmono : ∀ k d, (txRun msg accept (k + d)).remaining ≤ (txRun msg accept k).remaining := by
    intro k d
    induction d with
    | zero => exact le_refl _
    | succ d ih => exact le_trans (hstep (k + d)) ih
  have hdrop : ∀ k, 0 < accept k → (txRun msg accept k).remaining ≠ 0 →
      (txRun msg accept (k + 1)).remaining < (txRun msg accept k).remaining := by
    intro k ha hr
    rw [txRun]
    rw [if_neg hr]
    unfold txTurn; dsimp only
    rw [if_pos (by omega)]
    dsimp only; omega
  have key : ∀ n k, (txRun msg accept k).remaining ≤ n → ∃ K, (txRun msg accept K).remaining = 0 := by
    intro n
    induction n with
    | zero => intro k hk; exact ⟨k, by omega⟩
    | succ n ih =>
      intro k hk
      obtain ⟨m, hm, ha⟩ := h k
      by_cases hr : (txRun msg accept m).remaining = 0
      · exact ⟨m, hr⟩
      · have h1 := hdrop m ha hr
        have h2 := hmono k (m - k)
        rw [show k + (m - k) = m by omega] at h2
        exact ih (m + 1) (by omega)
  obtain ⟨K, hK⟩ := key _ 0 (le_refl _)
  refine ⟨K, fun k hk => ?_⟩
  have h2 := hmono K (k - K)
  rw [show K + (k - K) = k by omega] at h2
  have hz : (txRun msg accept k).remaining = 0 := by omega
  exact ⟨(C47_in_order msg accept k).2.1 hz, hz⟩

-- a transport that takes nothing, then one byte, then nothing, ... does keep taking bytes
example : (∀ n, ∃ m, n ≤ m ∧ 0 < (fun k => k % 2) m) ∧
    (txRun [1, 2, 3] (fun k => k % 2) 4).sent = [1, 2] ∧ (txRun [1, 2, 3] (fun k => k % 2) 6).sent = [1, 2, 3] :=
  ⟨fun n => ⟨2 * n + 1, by omega, by dsimp only; omega⟩, by decide, by decide⟩

/-! ## C48 -/

section
variable [FloatFmt]

omit [FloatFmt] in
theorem rxSkip_spec (L : CborLib) (t : Time) (l : List Byte) (st : Time) :
    ∃ sk : List Byte, l = sk ++ (rxSkip L t l st).1 ∧
      (∀ a b c, sk = a ++ b :: c → L.isMap (b :: (c ++ (rxSkip L t l st).1)) = false) ∧
      (rxSkip L t l st).2 = (if sk ≠ [] then t else st) ∧
      ((rxSkip L t l st).1 = [] ∨ L.isMap (rxSkip L t l st).1 = true) := by
  induction l generalizing st with
  | nil => exact ⟨[], rfl, by simp, rfl, .inl rfl⟩
  | cons b bs ih =>
    unfold rxSkip
    split
    · rename_i h; exact ⟨[], rfl, by simp, rfl, .inr h⟩
    · rename_i h
      obtain ⟨sk, h1, h2, h3, h4⟩ := ih t
      refine ⟨b :: sk, ?_, ?_, ?_, h4⟩
      · rw [List.cons_append, ← h1]
      · intro a b' c hs
        cases a with
        | nil =>
          injection hs with hb hc
          subst hb hc
          rw [← h1]; simpa using h
        | cons a0 a =>
          injection hs with _ hs
          exact h2 a b' c hs
      · rw [h3, ite_self, if_pos (by simp)]

theorem fiveSec : timeFromUs 5000000 = .ok (BitVec.ofNat 32 fiveSeconds) := by
  have := timeFromUs_eq (us := (5000000 : BitVec 32)) (by decide)
  rw [this]
  rfl

omit [FloatFmt] in
theorem fiveSec_toNat : (BitVec.ofNat 32 fiveSeconds).toNat = fiveSeconds := by decide

/-- One call, in full. -/
theorem processRx_spec {L : CborLib} (hL : L.Ok) {r : Rx} {i : RxInput} (hf : Fits r.buf i) (hr : r.buf.length ≤ rxCapacity) :
    ∃ q r', ∃ segs : List Seg, processRx L r i = .ok (q, r') ∧ r'.buf.length ≤ rxCapacity ∧
      segs.filterMap Seg.request? = q.toList ∧ RxCall L r.buf r.start i segs r'.buf r'.start := by
  unfold processRx tryRead rxRead
  rw [if_pos (show i.got.length ≤ rxCapacity - r.buf.length from hf)]
  rw [except_bind_ok]
  dsimp only
  obtain ⟨sk, h1, h2, h3, h4⟩ := rxSkip_spec L i.t1 (r.buf ++ i.got) (rxStartTime r i.t0)
  generalize rxSkip L i.t1 (r.buf ++ i.got) (rxStartTime r i.t0) = w at *
  obtain ⟨b, st⟩ := w
  dsimp only at h1 h2 h3 h4 ⊢
  have hlen : b.length ≤ rxCapacity := by
    have := congrArg List.length h1
    have hf' : i.got.length ≤ rxCapacity - r.buf.length := hf
    simp only [List.length_append] at this
    omega
  have hsk : (sk.map Seg.skipped).filterMap Seg.request? = [] := by
    rw [List.filterMap_map]
    induction sk with
    | nil => rfl
    | cons a l ih => simp [Seg.request?]
  have hstep : ∀ {segs keep}, Outcome L st i.t2 b segs keep → RxCall L r.buf r.start i (sk.map .skipped ++ segs) keep st :=
    fun ho => .call h1 h2 h3 ho
  have hreq : ∀ segs, (sk.map Seg.skipped ++ segs).filterMap Seg.request? = segs.filterMap Seg.request? := by
    intro segs; rw [List.filterMap_append, hsk, List.nil_append]
  split
  · rename_i hb
    subst hb
    exact ⟨none, _, _, rfl, by simp, hreq _, hstep (.nothing rfl)⟩
  · rename_i hb
    have hmap : L.isMap b = true := by
      rcases h4 with h | h
      · exact absurd h hb
      · exact h
    unfold rxJudge
    cases hv : L.check b with
    | complete n =>
      obtain ⟨hn0, hn1⟩ := hL.within b n hv
      dsimp only
      rw [except_bind_ok]
      dsimp only
      rw [if_neg (by omega)]
      unfold rxShift
      rw [show decide (n ≤ b.length) = true from decide_eq_true hn1]
      refine ⟨some (b.take n), { buf := b.drop n, start := st }, sk.map .skipped ++ [.request (b.take n)], rfl, ?_, hreq _,
        hstep (.request (List.take_append_drop n b).symm hmap ?_)⟩
      · simp only [List.length_drop]; omega
      · rw [hv, List.length_take]; congr 1; omega
    | short =>
      unfold rxShort
      rw [fiveSec]
      simp only [except_bind_ok, except_pure, fiveSec_toNat, ↓reduceIte]
      by_cases ht : fiveSeconds < (i.t2 - st).toNat
      · rw [if_pos ht]
        refine ⟨none, _, sk.map .skipped ++ [.timedOut b], rfl, by dsimp only; split <;> simp, hreq _, ?_⟩
        dsimp only
        rw [ite_self]
        exact hstep (.timedOut hmap hv ht)
      · rw [if_neg ht]
        by_cases hc : b.length = rxCapacity
        · refine ⟨none, _, sk.map .skipped ++ [.full b], rfl, ?_, hreq _, ?_⟩
          · dsimp only; rw [if_pos hc]; simp
          · dsimp only; rw [if_pos hc]
            exact hstep (.full hmap hv hc)
        · refine ⟨none, _, sk.map .skipped ++ [], rfl, ?_, hreq _, ?_⟩
          · dsimp only; rw [if_neg hc]; exact hlen
          · dsimp only; rw [if_neg hc]
            exact hstep (.wait hmap hv (by omega) (by omega))
    | bad => exact ⟨none, _, sk.map .skipped ++ [.garbage b], rfl, by simp, hreq _, hstep (.garbage hmap hv)⟩

theorem rxRun_spec {L : CborLib} (hL : L.Ok) (is : List RxInput) (r : Rx) (hr : r.buf.length ≤ rxCapacity) (hf : FitsAll L r is) :
    ∃ reqs r', ∃ segs : List Seg, rxRun L r is = .ok (reqs, r') ∧ r'.buf.length ≤ rxCapacity ∧
      segs.filterMap Seg.request? = reqs ∧ RxChain L r.buf r.start is segs r'.buf r'.start := by
  induction is generalizing r with
  | nil => exact ⟨[], r, [], rfl, hr, rfl, .nil _ _⟩
  | cons i is ih =>
    obtain ⟨q, r1, segs, h1, h2, h3, h4⟩ := processRx_spec hL hf.1 hr
    obtain ⟨qs, r2, segs', g1, g2, g3, g4⟩ := ih r1 h2 (hf.2 q r1 h1)
    refine ⟨q.toList ++ qs, r2, segs ++ segs', ?_, g2, ?_, .cons h4 g4⟩
    · rw [rxRun, h1, except_bind_ok]
      dsimp only
      rw [g1]; rfl
    · rw [List.filterMap_append, h3, g3]

omit [FloatFmt] in
theorem skipped_bytes (sk : List Byte) : ((sk.map Seg.skipped).map Seg.bytes).flatten = sk := by
  induction sk with
  | nil => rfl
  | cons a l ih => simpa [Seg.bytes] using ih

omit [FloatFmt] in
theorem chain_bytes {L : CborLib} {p : List Byte} {s s' : Time} {is : List RxInput} {segs : List Seg} {p' : List Byte}
    (h : RxChain L p s is segs p' s') :
    p ++ (is.map RxInput.got).flatten = (segs.map Seg.bytes).flatten ++ p' := by
  induction h with
  | nil => simp
  | cons hc _ ih =>
    rename_i p since i is segs segs' p1 s1 p2 s2 hch
    cases hc with
    | @call sk rest _ segs1 _ h1 _ _ ho =>
      have hs := skipped_bytes sk
      have hrest : rest = (segs1.map Seg.bytes).flatten ++ p1 := by
        cases ho with
        | nothing h => simpa using h
        | request h => simpa [Seg.bytes] using h
        | wait => simp
        | timedOut => simp [Seg.bytes]
        | full => simp [Seg.bytes]
        | garbage => simp [Seg.bytes]
      rw [List.map_cons, List.flatten_cons, ← List.append_assoc, h1, List.append_assoc, hrest, List.append_assoc, ih]
      simp only [List.map_append, List.flatten_append, hs, List.append_assoc]

/-- C48: whatever arrives, in whatever chunks and at whatever times, no call of `console_process` overruns the buffer or trips
an assertion, and each call treats the bytes as the specification `RxCall` says. -/
theorem C48_every_call {L : CborLib} (hL : L.Ok) (is : List RxInput) (hf : FitsAll L rxBoot is) :
    ∃ reqs r, ∃ segs : List Seg, rxRun L rxBoot is = .ok (reqs, r) ∧ r.buf.length ≤ rxCapacity ∧
      segs.filterMap Seg.request? = reqs ∧ RxChain L [] 0 is segs r.buf r.start :=
  rxRun_spec hL is rxBoot (by decide) hf

/-- C48: the bytes received are, in order, the requests handled, the bytes skipped and the stretches given up, and then what is
still in the buffer: every byte is used exactly once.  Every request handled is one complete map. -/
theorem C48_exactly_once {L : CborLib} (hL : L.Ok) {is : List RxInput} {reqs : List (List Byte)} {r : Rx} (hf : FitsAll L rxBoot is)
    (hrun : rxRun L rxBoot is = .ok (reqs, r)) :
    ∃ segs : List Seg, (is.map RxInput.got).flatten = (segs.map Seg.bytes).flatten ++ r.buf ∧
      segs.filterMap Seg.request? = reqs ∧ ∀ m ∈ reqs, IsRequest L m := by
  obtain ⟨reqs', r', segs, h1, _, h3, h4⟩ := C48_every_call hL is hf
  rw [hrun] at h1
  cases h1
  refine ⟨segs, by simpa using chain_bytes h4, h3, ?_⟩
  intro m hm
  rw [← h3, List.mem_filterMap] at hm
  obtain ⟨s, hs, hsm⟩ := hm
  generalize hb : r.buf = pb at h4
  generalize hst : r.start = ps at h4
  clear hrun h3 hf hb hst
  generalize ([] : List Byte) = p0 at h4
  generalize (0 : Time) = s0 at h4
  induction h4 with
  | nil => cases hs
  | cons hc _ ih =>
    rcases List.mem_append.1 hs with hs | hs
    · cases hc with
      | call h1 _ _ ho =>
        rcases List.mem_append.1 hs with hs | hs
        · obtain ⟨b, _, rfl⟩ := List.mem_map.1 hs
          cases hsm
        · cases ho <;> simp only [List.mem_singleton, List.not_mem_nil] at hs <;> subst hs <;> cases hsm
          rename_i hmap hck hrest _
          subst hrest
          exact hL.alone _ _ hmap hck
    · exact ih hs

omit [FloatFmt] in
theorem prefix_short {L : CborLib} (hL : L.Ok) {m p : List Byte} (hm : IsRequest L m) (hp : p <+: m) (hlt : p.length < m.length) :
    L.check p = .short := by
  obtain ⟨s, rfl⟩ := hp
  by_contra h
  have h1 := hL.stable p s h
  rw [hm.2] at h1
  have := (hL.within p _ h1.symm).2
  omega

/-- A call whose bytes begin with a complete request handles it. -/
theorem processRx_request {L : CborLib} (hL : L.Ok) {r : Rx} {i : RxInput} {m rest : List Byte} (hf : Fits r.buf i)
    (hm : IsRequest L m) (h : r.buf ++ i.got = m ++ rest) :
    processRx L r i = .ok (some m, { buf := rest, start := rxStartTime r i.t0 }) := by
  have hmap : L.isMap (m ++ rest) = true := hL.mapStable m rest hm.1
  have hck : L.check (m ++ rest) = .complete m.length := by
    rw [hL.stable m rest (by rw [hm.2]; exact fun h => nomatch h), hm.2]
  have hpos := (hL.within m _ hm.2).1
  unfold processRx tryRead rxRead
  rw [if_pos (show i.got.length ≤ rxCapacity - r.buf.length from hf), except_bind_ok, h]
  have hsk : rxSkip L i.t1 (m ++ rest) (rxStartTime r i.t0) = (m ++ rest, rxStartTime r i.t0) := by
    cases m with
    | nil => simp at hpos
    | cons b t =>
      rw [List.cons_append] at hmap ⊢
      rw [rxSkip, if_pos hmap]
  rw [hsk]
  dsimp only
  rw [if_neg (show ¬ m ++ rest = [] by intro h; rw [List.append_eq_nil_iff] at h; rw [h.1] at hpos; simp at hpos)]
  unfold rxJudge
  dsimp only
  rw [hck]
  dsimp only
  rw [except_bind_ok]
  dsimp only
  rw [if_neg (by omega)]
  unfold rxShift
  rw [show decide (m.length ≤ (m ++ rest).length) = true from decide_eq_true (by simp)]
  simp only [cassert_true, except_bind_ok, except_pure, List.take_left, List.drop_left]

/-- A call that leaves a request incomplete keeps it, if it is in time. -/
theorem processRx_wait {L : CborLib} (hL : L.Ok) {r : Rx} {i : RxInput} {m : List Byte} (hf : Fits r.buf i) (hm : Sendable L m)
    (hne : r.buf ++ i.got ≠ []) (hp : r.buf ++ i.got <+: m) (hlt : (r.buf ++ i.got).length < m.length)
    (ht : (i.t2 - rxStartTime r i.t0).toNat ≤ fiveSeconds) :
    processRx L r i = .ok (none, { buf := r.buf ++ i.got, start := rxStartTime r i.t0 }) := by
  obtain ⟨hreq, hearly, hcap⟩ := hm
  have hck := prefix_short hL hreq hp hlt
  have hmap := hearly _ hne hp
  unfold processRx tryRead rxRead
  rw [if_pos (show i.got.length ≤ rxCapacity - r.buf.length from hf), except_bind_ok]
  generalize r.buf ++ i.got = b at *
  have hsk : rxSkip L i.t1 b (rxStartTime r i.t0) = (b, rxStartTime r i.t0) := by
    cases b with
    | nil => exact absurd rfl hne
    | cons b t => rw [rxSkip, if_pos hmap]
  rw [hsk]
  dsimp only
  rw [if_neg hne]
  unfold rxJudge
  dsimp only
  rw [hck]
  unfold rxShort
  rw [fiveSec]
  simp only [except_bind_ok, except_pure, fiveSec_toNat, ↓reduceIte]
  rw [if_neg (show ¬ fiveSeconds < (i.t2 - rxStartTime r i.t0).toNat by omega), if_neg (by omega)]

theorem processRx_nothing {L : CborLib} {r : Rx} {i : RxInput} (h : r.buf ++ i.got = []) :
    processRx L r i = .ok (none, { buf := [], start := i.t0 }) := by
  have hb := (List.append_eq_nil_iff.1 h).1
  have hg := (List.append_eq_nil_iff.1 h).2
  unfold processRx tryRead rxRead
  rw [if_pos (show i.got.length ≤ _ by rw [hg]; simp), except_bind_ok, h, rxSkip, rxStartTime, if_pos hb]
  rfl

/-- C48: a client that sends one request after the other has each handled exactly once, in order, one by each call, as soon
as it is complete, whatever the chunks, as long as the calls at which a request is incomplete come within five seconds of the
last call that found nothing pending.  What is missing from the full claim is `C48_full`. -/
theorem C48_requests_partial {L : CborLib} (hL : L.Ok) {todo : List (List Byte)} {is : List RxInput} {out : List (List Byte)}
    (hs : ∀ m ∈ todo, Sendable L m) {p : List Byte} {since : Time} (h : InTimeSince p since todo is out) :
    ∃ r, rxRun L { buf := p, start := since } is = .ok (out, r) := by
  induction h with
  | done p since todo => exact ⟨_, rfl⟩
  | nothing h _ ih =>
    rename_i p since todo i is out _
    obtain ⟨r, hr⟩ := ih hs
    refine ⟨r, ?_⟩
    rw [rxRun, processRx_nothing h, except_bind_ok]
    dsimp only
    rw [hr]; rfl
  | handle hf h _ ih =>
    rename_i p since m todo i is out rest _
    obtain ⟨r, hr⟩ := ih fun m' hm' => hs m' (List.mem_cons_of_mem _ hm')
    refine ⟨r, ?_⟩
    rw [rxRun, processRx_request (r := { buf := p, start := since }) hL hf (hs m List.mem_cons_self).1 h, except_bind_ok]
    dsimp only
    rw [show rxStartTime { buf := p, start := since } i.t0 = if p = [] then i.t0 else since from rfl, hr]; rfl
  | wait hf hne hp hlt ht _ ih =>
    rename_i p since m todo i is out _
    obtain ⟨r, hr⟩ := ih hs
    refine ⟨r, ?_⟩
    rw [rxRun, processRx_wait (r := { buf := p, start := since }) hL hf (hs m List.mem_cons_self) hne hp hlt ht, except_bind_ok]
    dsimp only
    rw [show rxStartTime { buf := p, start := since } i.t0 = if p = [] then i.t0 else since from rfl, hr]; rfl

/-- The full claim: a request is only ever given up when five seconds have passed since its first byte arrived. -/
def C48_full (L : CborLib) : Prop :=
  ∀ (todo : List (List Byte)) (is : List RxInput) (out : List (List Byte)), (∀ m ∈ todo, Sendable L m) →
    InTime [] todo is out → ∃ r, rxRun L rxBoot is = .ok (out, r)

end

instance (p : List Byte) (i : RxInput) : Decidable (Fits p i) := inferInstanceAs (Decidable (_ ≤ _))

/-- Times in the counterexample: seconds to ticks. -/
private def sec (ms : Nat) : Time := BitVec.ofNat 32 (ms * 4000)

private def at' (ms : Nat) (got : List Byte) : RxInput := { got := got, t0 := sec ms, t1 := sec ms, t2 := sec ms }

/-- Five calls: the buffer is never found empty after the first, so at 5.15 s the bytes that arrived at 5.1 s are given up. -/
def c48Calls : List RxInput :=
  [at' 0 [0xa0, 0xa0], at' 2500 [0xa0], at' 5100 [0xa1, 0x00], at' 5150 [], at' 5200 [0x00]]

def c48Requests : List (List Byte) := [[0xa0], [0xa0], [0xa0], [0xa1, 0x00, 0x00]]

theorem scan_a0 : cbor.check [0xa0] = .complete 1 := by
  show cborScan _ _ = _
  rw [cborScan]; simp [cborHead, headStep, itemDone, Verdict.add, cborScan]

theorem scan_a1 : cbor.check [0xa1, 0x00, 0x00] = .complete 3 := by
  show cborScan _ _ = _
  rw [cborScan]; simp [cborHead, headStep, itemDone, Verdict.add, cborScan]

theorem c48_sendable : ∀ m ∈ c48Requests, Sendable cbor m := by
  intro m hm
  have hm : m = [0xa0] ∨ m = [0xa1, 0x00, 0x00] := by simpa [c48Requests] using hm
  rcases hm with rfl | rfl
  · exact ⟨⟨rfl, scan_a0⟩, cbor_early _ _ (by decide), by decide⟩
  · exact ⟨⟨rfl, scan_a1⟩, cbor_early _ _ (by decide), by decide⟩

theorem c48_inTime : InTime [] c48Requests c48Calls c48Requests := by
  refine .handle (rest := [(0xa0, sec 0)]) (by decide) rfl (by decide) ?_
  refine .handle (rest := [(0xa0, sec 2500)]) (by decide) rfl (by decide) ?_
  refine .handle (rest := [(0xa1, sec 5100), (0x00, sec 5100)]) (by decide) rfl (by decide) ?_
  refine .wait (b := 0xa1) (a := sec 5100) (q := [(0x00, sec 5100)]) (by decide) rfl (by decide) (by decide) (by decide) ?_
  refine .handle (rest := []) (by decide) rfl (by decide) ?_
  exact .done _ _

/-- C48: the full claim is false.  The time from which the five seconds count is only set when the buffer is found empty (or a
byte is skipped), not when a request has been handled; so a client that keeps the buffer from being found empty for five
seconds loses the next request that arrives in two pieces, however quickly. -/
theorem C48_full_false : ¬ @C48_full binary32 cbor := by
  intro h
  let _ := binary32
  obtain ⟨r, hr⟩ := h c48Requests c48Calls c48Requests c48_sendable c48_inTime
  have hq := c48_sendable
  have h0 : IsRequest cbor [0xa0] := (hq _ (by simp [c48Requests])).1
  have h1 : IsRequest cbor [0xa1, 0x00, 0x00] := (hq _ (by simp [c48Requests])).1
  have hshort : cbor.check [0xa1, 0x00] = .short := prefix_short cbor_ok h1 (by decide) (by decide)
  have e1 : processRx cbor rxBoot (at' 0 [0xa0, 0xa0]) = .ok (some [0xa0], ⟨[0xa0], sec 0⟩) :=
    processRx_request cbor_ok (show Fits _ _ by decide) h0 rfl
  have e2 : processRx cbor ⟨[0xa0], sec 0⟩ (at' 2500 [0xa0]) = .ok (some [0xa0], ⟨[0xa0], sec 0⟩) :=
    processRx_request cbor_ok (show Fits _ _ by decide) h0 rfl
  have e3 : processRx cbor ⟨[0xa0], sec 0⟩ (at' 5100 [0xa1, 0x00]) = .ok (some [0xa0], ⟨[0xa1, 0x00], sec 0⟩) :=
    processRx_request cbor_ok (show Fits _ _ by decide) h0 rfl
  have e4 : processRx cbor ⟨[0xa1, 0x00], sec 0⟩ (at' 5150 []) = .ok (none, ⟨[], sec 0⟩) := by
    unfold processRx tryRead rxRead
    rw [if_pos (by decide), except_bind_ok]
    rw [show rxSkip cbor (at' 5150 []).t1 ([0xa1, 0x00] ++ (at' 5150 []).got) (rxStartTime ⟨[0xa1, 0x00], sec 0⟩ (at' 5150 []).t0)
      = ([0xa1, 0x00], sec 0) from rfl]
    dsimp only
    rw [if_neg (by decide)]
    unfold rxJudge
    dsimp only
    rw [hshort]
    unfold rxShort
    rw [fiveSec]
    rfl
  have e5 : processRx cbor ⟨[], sec 0⟩ (at' 5200 [0x00]) = .ok (none, ⟨[], sec 5200⟩) := rfl
  have : rxRun cbor rxBoot c48Calls = .ok ([[0xa0], [0xa0], [0xa0]], ⟨[], sec 5200⟩) := by
    unfold c48Calls
    simp only [rxRun, e1, e2, e3, e4, e5, except_bind_ok]
    rfl
  rw [this] at hr
  injection hr with hr
  injection hr with hr _
  exact absurd (congrArg List.length hr) (by decide)

-- three requests in four chunks, the second one cut in two: the hypotheses of the partial claim are met
example : @InTimeSince [] 0 [[0xa0], [0xa1, 0x00, 0x00], [0xa0]]
    [at' 10 [0xa0, 0xa1], at' 20 [0x00], at' 30 [], at' 40 [0x00, 0xa0], at' 50 []] [[0xa0], [0xa1, 0x00, 0x00], [0xa0]] := by
  refine .handle (rest := [0xa1]) (by decide) rfl ?_
  refine .wait (by decide) (by decide) (by decide) (by decide) (by decide) ?_
  refine .wait (by decide) (by decide) (by decide) (by decide) (by decide) ?_
  refine .handle (rest := [0xa0]) (by decide) rfl ?_
  refine .handle (rest := []) (by decide) rfl ?_
  exact .done _ _ _

-- and CBOR as a whole meets the contract
example : cbor.Ok := cbor_ok

/-- C48: not every request is recognised from its first byte on.  A map whose header needs a second byte (24 entries or more,
or a client that writes lengths in long form) is skipped byte by byte when only its first byte has arrived. -/
theorem C48_split_header : IsRequest cbor [0xb8, 0x00] ∧ ¬ EarlyMap cbor [0xb8, 0x00] := by
  refine ⟨⟨rfl, ?_⟩, fun h => ?_⟩
  · show cborScan _ _ = _
    rw [cborScan]; simp [cborHead, headStep, itemDone, Verdict.add, cborScan, beNat]
  · exact absurd (h [0xb8] (by decide) (by decide)) (by decide)

/-! ## C53 -/

section
variable [FloatFmt]

omit [FloatFmt] in
theorem half_fields (sign : Bool) (exp mant : Nat) (he : exp < 32) (hm : mant < 1024) :
    ((halfBits sign exp mant >>> 10) &&& 0x1f).toNat = exp ∧ (halfBits sign exp mant &&& 0x3ff).toNat = mant ∧
      (halfBits sign exp mant &&& 0x8000 ≠ 0 ↔ sign = true) := by
  have hn : (halfBits sign exp mant).toNat = (if sign then 1 else 0) * 2 ^ 15 + exp * 2 ^ 10 + mant := by
    unfold halfBits
    rw [BitVec.toNat_ofNat]
    apply Nat.mod_eq_of_lt
    cases sign <;> simp <;> omega
  generalize halfBits sign exp mant = b at *
  refine ⟨?_, ?_, ?_⟩
  · rw [BitVec.toNat_and, BitVec.toNat_ushiftRight, hn, Nat.shiftRight_eq_div_pow]
    show _ &&& (2 ^ 5 - 1) = exp
    rw [Nat.and_two_pow_sub_one_eq_mod]
    cases sign <;> simp <;> omega
  · rw [BitVec.toNat_and, hn]
    show _ &&& (2 ^ 10 - 1) = mant
    rw [Nat.and_two_pow_sub_one_eq_mod]
    cases sign <;> simp <;> omega
  · rw [ne_eq, ← BitVec.toNat_inj, BitVec.toNat_and, hn]
    show ¬ (_ &&& 2 ^ 15 = 0) ↔ _
    rw [Nat.and_two_pow, Nat.testBit_eq_decide_div_mod_eq]
    cases sign
    · rw [decide_eq_false (by simp; omega)]; simp
    · rw [decide_eq_true (by simp; omega)]; simp

/-- C53: every half-precision pattern with the given sign, exponent and fraction decodes to the value IEEE 754 gives it. -/
theorem C53_exact (sign : Bool) (exp mant : Nat) (he : exp < 32) (hm : mant < 1024) :
    decodeHalf (halfBits sign exp mant) =
      match halfValue sign exp mant with
      | .num q => Fl.fin q
      | .inf n => Fl.inf n
      | .nan => Fl.nan := by
  obtain ⟨h1, h2, h3⟩ := half_fields sign exp mant he hm
  unfold decodeHalf halfValue ldexpf
  dsimp only
  simp only [h1, h2, h3]
  by_cases h31 : exp = 31
  · subst h31
    by_cases h0 : mant = 0
    · subst h0
      cases sign
      · simp
      · simp [Fl.neg]
    · have h0' : ¬ (mant : Int) = 0 := by omega
      cases sign
      · simp [h0]
      · simp [Fl.neg, h0]
  · rw [if_neg h31]
    by_cases he0 : exp = 0
    · subst he0
      have hr := FloatFmt.rnd_dyadic (mant : ℤ) (-24) (by rw [abs_of_nonneg (by omega)]; omega) (by norm_num)
      have hv : ((mant : ℤ) : ℚ) * 2 ^ (-24 : ℤ) = (mant : ℚ) / 1024 * 2 ^ (-14 : ℤ) := by
        push_cast
        rw [show (-24 : ℤ) = -14 + -10 by norm_num, zpow_add₀ (by norm_num)]
        norm_num
        ring
      rw [if_pos (show ((0 : ℕ) : ℤ) = 0 by norm_num), hr, hv]
      cases sign
      · simp
      · simp [Fl.neg]
    · have hr := FloatFmt.rnd_dyadic (mant + 1024 : ℤ) (exp - 25) (by rw [abs_of_nonneg (by omega)]; omega)
        (by rw [abs_le]; omega)
      have hv : ((mant + 1024 : ℤ) : ℚ) * 2 ^ ((exp : ℤ) - 25) = (1 + (mant : ℚ) / 1024) * 2 ^ ((exp : ℤ) - 15) := by
        push_cast
        rw [show (exp : ℤ) - 25 = ((exp : ℤ) - 15) + -10 by ring, zpow_add₀ (by norm_num)]
        norm_num
        ring
      rw [if_neg he0, if_neg (show ¬ ((exp : ℕ) : ℤ) = 0 by omega), if_pos (show ((exp : ℕ) : ℤ) ≠ 31 by omega), hr, hv]
      cases sign
      · simp
      · simp only [↓reduceIte, Fl.neg, neg_mul, one_mul]

omit [FloatFmt] in
/-- Every pattern has such fields. -/
theorem C53_all_patterns (half : BitVec 16) :
    ∃ sign exp mant, exp < 32 ∧ mant < 1024 ∧ half = halfBits sign exp mant := by
  refine ⟨decide (2 ^ 15 ≤ half.toNat), half.toNat / 2 ^ 10 % 32, half.toNat % 2 ^ 10, by omega, by omega, ?_⟩
  apply BitVec.eq_of_toNat_eq
  unfold halfBits
  rw [BitVec.toNat_ofNat]
  have := half.isLt
  by_cases h : 2 ^ 15 ≤ half.toNat
  · rw [decide_eq_true h]; simp; omega
  · rw [decide_eq_false h]; simp; omega

-- 1.5, the smallest subnormal, and minus infinity
example : decodeHalf 0x3e00 = Fl.fin (3 / 2) ∧ decodeHalf 0x0001 = Fl.fin (1 / 2 ^ 24) ∧ decodeHalf 0xfc00 = Fl.inf true := by
  refine ⟨?_, ?_, ?_⟩
  · rw [show (0x3e00 : BitVec 16) = halfBits false 15 512 from rfl, C53_exact _ _ _ (by norm_num) (by norm_num)]
    norm_num [halfValue]
  · rw [show (0x0001 : BitVec 16) = halfBits false 0 1 from rfl, C53_exact _ _ _ (by norm_num) (by norm_num)]
    norm_num [halfValue]
  · rw [show (0xfc00 : BitVec 16) = halfBits true 31 0 from rfl, C53_exact _ _ _ (by norm_num) (by norm_num)]
    norm_num [halfValue]

end

end Verif
