import Verif.Props.TunnelDemo
/-!
# What the creator of a tunnel believes, and answers to long build requests
-/
namespace Emissary.TBuild
open Emissary Emissary.I2np Emissary.Build Emissary.Prim
open Emissary.Ssu2 (Prims)

/-! ## C110: a tunnel is established exactly if every hop says yes -/

/-- Record `i` without the layers of the given hops. -/
def strip (P : Prims) (hops : List Hop) (i : Nat) (r : Bytes) : Bytes :=
  hops.foldl (fun r h => layer P h.session.keys.reply i r) r

/-- The answer of hop `h` in record `r` is authentic and its status byte is `0`. -/
def SaysYes (P : Prims) (h : Hop) (i : Nat) (r : Bytes) : Prop :=
  ∃ plain, P.unseal h.session.keys.reply i h.session.state r = some plain ∧ plain[201]? = some 0

/-- Every hop says yes in its own record, once the layers of the hops behind it are removed, last hop first. -/
def AllYes (P : Prims) (hops : List Hop) (rs : List Bytes) : Prop :=
  ∀ i h, hops[i]? = some h → ∃ r, rs[i]? = some r ∧ SaysYes P h i (strip P (hops.drop (i + 1)).reverse i r)

/-- The same for the order in which the answers are read. -/
def Agrees (P : Prims) (l : List (Hop × Nat)) (rs : List Bytes) : Prop :=
  ∀ pre h i suf, l = pre ++ (h, i) :: suf → ∃ r, rs[i]? = some r ∧ SaysYes P h i (strip P (pre.map (·.1)) i r)

theorem agrees_cons (P : Prims) (h : Hop) (i : Nat) (l : List (Hop × Nat)) (rs : List Bytes) (hi : ∀ x ∈ l, x.2 ≠ i) :
    Agrees P ((h, i) :: l) rs ↔ (∃ r, rs[i]? = some r ∧ SaysYes P h i r) ∧
      Agrees P l (rs.mapIdx fun j r => if j = i then r else layer P h.session.keys.reply j r) := by
  constructor
  · intro ha
    refine ⟨ha [] h i l rfl, ?_⟩
    intro pre h' j suf e
    obtain ⟨r, h1, h2⟩ := ha ((h, i) :: pre) h' j suf (by rw [e]; rfl)
    have hj : j ≠ i := hi (h', j) (by rw [e]; simp)
    refine ⟨layer P h.session.keys.reply j r, ?_, h2⟩
    rw [List.getElem?_mapIdx, h1]
    simp [hj]
  · rintro ⟨h0, ha⟩ pre h' j suf e
    cases pre with
    | nil =>
      simp only [List.nil_append, List.cons.injEq, Prod.mk.injEq] at e
      obtain ⟨⟨rfl, rfl⟩, _⟩ := e
      exact h0
    | cons x pre =>
      simp only [List.cons_append, List.cons.injEq] at e
      obtain ⟨rfl, e⟩ := e
      obtain ⟨r, h1, h2⟩ := ha pre h' j suf e
      have hj : j ≠ i := hi (h', j) (by rw [e]; simp)
      rw [List.getElem?_mapIdx] at h1
      obtain ⟨r0, hr0, h1⟩ := Option.map_eq_some_iff.mp h1
      rw [if_neg hj] at h1
      subst h1
      exact ⟨r0, hr0, h2⟩

/-- A report that names a culprit among the given positions. -/
def Culprit (l : List (Hop × Nat)) (report : Report) : Prop :=
  ∃ x ∈ l, ∃ e, report[x.2]? = some e ∧ ∃ o, e.2 = some o ∧ o ≠ .accepted

theorem set_get (report : Report) (i : Nat) (o : Outcome) (k : Nat) :
    (report.set i o)[k]? = if i = k then (report[k]?).map fun x => (x.1, some o) else report[k]? := by
  unfold Report.set
  rw [List.getElem?_modify]
  cases report[k]? <;> split <;> simp

theorem readReplies_spec (P : Prims) (l : List (Hop × Nat)) (rs : List Bytes) (report : Report) (acc : List Hop)
    (hn : (l.map (·.2)).Nodup) (hlt : ∀ x ∈ l, x.2 < report.length) :
    (∀ rep, readReplies P l rs report acc = some (.error rep) → Culprit l rep ∧ ¬ Agrees P l rs) ∧
    (∀ rep acc', readReplies P l rs report acc = some (.ok (rep, acc')) →
      (∀ k, k ∉ l.map (·.2) → rep[k]? = report[k]?) ∧
      ((acc' = acc ++ l.map (·.1) ∧ Agrees P l rs) ∨
       (acc'.length < acc.length + l.length ∧ ¬ Agrees P l rs ∧ Culprit l rep))) := by
  induction l generalizing rs report acc with
  | nil =>
    refine ⟨fun rep h => by simp [readReplies] at h, fun rep acc' h => ?_⟩
    simp only [readReplies, Option.some.injEq, Except.ok.injEq, Prod.mk.injEq] at h
    obtain ⟨rfl, rfl⟩ := h
    refine ⟨fun _ _ => rfl, Or.inl ⟨by simp, fun pre h i suf e => ?_⟩⟩
    exact absurd e (by simp)
  | cons x l ih =>
    obtain ⟨h, i⟩ := x
    simp only [List.map_cons, List.nodup_cons] at hn
    obtain ⟨hni, hn⟩ := hn
    have hi : ∀ x ∈ l, x.2 ≠ i := fun x hx e => hni (e ▸ List.mem_map_of_mem hx)
    have hlt' : ∀ (o : Outcome), ∀ x ∈ l, x.2 < (report.set i o).length := by
      intro o x hx
      simpa [Report.set] using hlt x (List.mem_cons_of_mem _ hx)
    have hil : i < report.length := hlt (h, i) List.mem_cons_self
    have hset : ∀ (o : Outcome), ∃ e, (report.set i o)[i]? = some e ∧ e.2 = some o := by
      intro o
      rw [set_get, if_pos rfl, List.getElem?_eq_getElem hil]
      exact ⟨_, rfl, rfl⟩
    have hcul : ∀ rep, Culprit l rep → Culprit ((h, i) :: l) rep := fun rep ⟨x, hx, hx'⟩ => ⟨x, List.mem_cons_of_mem _ hx, hx'⟩
    rw [agrees_cons P h i l rs hi]
    rw [readReplies]
    cases hr : rs[i]? with
    | none => constructor <;> (intros; simp_all)
    | some r =>
      simp only [Option.bind_eq_bind, Option.bind_some]
      have hsy : (∃ r', some r = some r' ∧ SaysYes P h i r') ↔ SaysYes P h i r :=
        ⟨fun ⟨r', e, hh⟩ => by injection e with e; rwa [e], fun hh => ⟨r, rfl, hh⟩⟩
      rw [hsy]
      cases hu : P.unseal h.session.keys.reply i h.session.state r with
      | none =>
        have hno : ¬ SaysYes P h i r := by rintro ⟨p, hp, _⟩; rw [hu] at hp; cases hp
        constructor
        · intro rep e
          simp only [Option.some.injEq, Except.error.injEq] at e
          subst e
          obtain ⟨e, h1, h2⟩ := hset .invalid
          exact ⟨⟨_, List.mem_cons_self, e, h1, _, h2, by simp⟩, fun hh => hno hh.1⟩
        · intro rep acc' e
          simp at e
      | some plain =>
        simp only []
        cases hst : plain[201]? with
        | none => constructor <;> (intros; simp_all)
        | some st =>
          simp only [Option.bind_some]
          by_cases h0 : st = 0
          · have hyes : SaysYes P h i r := ⟨plain, hu, by rw [hst, h0]⟩
            rw [if_pos h0]
            obtain ⟨a1, a2⟩ := ih (rs.mapIdx fun j r => if j = i then r else layer P h.session.keys.reply j r) (report.set i .accepted)
              (acc ++ [h]) hn (hlt' _)
            constructor
            · intro rep e
              obtain ⟨b1, b2⟩ := a1 rep e
              exact ⟨hcul rep b1, fun hh => b2 hh.2⟩
            · intro rep acc' e
              obtain ⟨b1, b2⟩ := a2 rep acc' e
              refine ⟨fun k hk => ?_, ?_⟩
              · simp only [List.map_cons, List.mem_cons, not_or] at hk
                rw [b1 k hk.2, set_get, if_neg (fun e => hk.1 e.symm)]
              · rcases b2 with ⟨b2, b3⟩ | ⟨b2, b3, b4⟩
                · exact Or.inl ⟨by rw [b2]; simp, hyes, b3⟩
                · refine Or.inr ⟨?_, fun hh => b3 hh.2, hcul rep b4⟩
                  simp only [List.length_append, List.length_cons, List.length_nil] at b2 ⊢
                  omega
          · have hno : ¬ SaysYes P h i r := by
              rintro ⟨p, hp, hp'⟩
              rw [hu] at hp
              injection hp with hp
              subst hp
              rw [hst] at hp'
              injection hp' with hp'
              exact h0 hp'
            rw [if_neg h0]
            obtain ⟨a1, a2⟩ := ih (rs.mapIdx fun j r => if j = i then r else layer P h.session.keys.reply j r)
              (report.set i (.rejected st)) acc hn (hlt' _)
            constructor
            · intro rep e
              obtain ⟨b1, b2⟩ := a1 rep e
              exact ⟨hcul rep b1, fun hh => hno hh.1⟩
            · intro rep acc' e
              obtain ⟨b1, b2⟩ := a2 rep acc' e
              refine ⟨fun k hk => ?_, ?_⟩
              · simp only [List.map_cons, List.mem_cons, not_or] at hk
                rw [b1 k hk.2, set_get, if_neg (fun e => hk.1 e.symm)]
              · refine Or.inr ⟨?_, fun hh => hno hh.1, ?_⟩
                · have : acc'.length ≤ acc.length + l.length := by
                    rcases b2 with ⟨b2, _⟩ | ⟨b2, _⟩
                    · rw [b2]; simp
                    · omega
                  simp only [List.length_cons]
                  omega
                · obtain ⟨e, g1, g2⟩ := hset (.rejected st)
                  exact ⟨_, List.mem_cons_self, e, by rw [b1 i hni]; exact g1, _, g2, by simp⟩

theorem zipIdx_split (hops : List Hop) (pre suf : List (Hop × Nat)) (h : Hop) (i : Nat)
    (e : hops.zipIdx.reverse = pre ++ (h, i) :: suf) : hops[i]? = some h ∧ pre.map (·.1) = (hops.drop (i + 1)).reverse := by
  have e := congrArg List.reverse e
  rw [List.reverse_reverse, List.reverse_append, List.reverse_cons, List.append_assoc, List.singleton_append] at e
  have hsl : suf.reverse.length < hops.zipIdx.length := by rw [e]; simp
  have h1 : hops.zipIdx[suf.reverse.length]? = some (h, i) := by
    rw [e, List.getElem?_append_right (Nat.le_refl _)]; simp
  rw [List.getElem?_zipIdx] at h1
  obtain ⟨a, ha, h1⟩ := Option.map_eq_some_iff.mp h1
  simp only [Prod.mk.injEq, Nat.zero_add] at h1
  obtain ⟨rfl, h1'⟩ := h1
  rw [h1'] at ha
  refine ⟨ha, ?_⟩
  have h2 : hops.zipIdx.drop (i + 1) = pre.reverse := by
    rw [e, ← h1', List.drop_append]
    simp
  have h3 : (hops.zipIdx.drop (i + 1)).map (·.1) = hops.drop (i + 1) := by
    rw [List.map_drop]; exact congrArg _ (List.zipIdx_map_fst 0 hops)
  rw [h2] at h3
  rw [← h3, List.map_reverse, List.reverse_reverse]

theorem agrees_iff (P : Prims) (hops : List Hop) (rs : List Bytes) : Agrees P hops.zipIdx.reverse rs ↔ AllYes P hops rs := by
  constructor
  · intro h i hop hi
    have hl : i < hops.zipIdx.length := by
      rw [List.length_zipIdx]
      exact (List.getElem?_eq_some_iff.mp hi).1
    have e : hops.zipIdx.reverse = (hops.zipIdx.drop (i + 1)).reverse ++ (hop, i) :: (hops.zipIdx.take i).reverse := by
      have : hops.zipIdx = hops.zipIdx.take i ++ (hop, i) :: hops.zipIdx.drop (i + 1) := by
        have h1 : hops.zipIdx[i] = (hop, i) := by
          have : hops.zipIdx[i]? = some (hop, i) := by rw [List.getElem?_zipIdx, hi]; simp
          rw [List.getElem?_eq_getElem hl] at this
          exact Option.some.inj this
        rw [← h1, ← List.drop_eq_getElem_cons hl, List.take_append_drop]
      conv => lhs; rw [this]
      simp
    obtain ⟨r, h1, h2⟩ := h _ _ _ _ e
    rw [(zipIdx_split hops _ _ _ _ e).2] at h2
    exact ⟨r, h1, h2⟩
  · intro h pre hop i suf e
    obtain ⟨h1, h2⟩ := zipIdx_split hops pre suf hop i e
    obtain ⟨r, h3, h4⟩ := h i hop h1
    exact ⟨r, h3, by rw [h2]; exact h4⟩

theorem nodup_idx (hops : List Hop) : ((hops.zipIdx.reverse).map (·.2)).Nodup := by
  rw [List.map_reverse]
  refine (List.reverse_perm _).symm.nodup ?_
  exact (List.zipIdx_map_snd 0 hops).symm ▸ List.nodup_range'

/-- C110: whatever the reply is, the creator considers a tunnel established exactly if the reply has the right size and every hop says
yes in it; and then the tunnel has the hops that were asked. -/
theorem C110_established_iff_all_agree (P : Prims) (t : Pending) (m : Message) (payload : Bytes)
    (hp : replyPayload P t m = some (some payload)) (hops : List Hop) (hne : tryBuild P t m ≠ .panic) :
    tryBuild P t m = .tunnel hops ↔
      hops = t.hops ∧ payload.length = t.numRecords * 218 + 1 ∧ AllYes P t.hops (records 218 payload) := by
  unfold tryBuild at hne ⊢
  simp only [hp] at hne ⊢
  by_cases hl : payload.length = t.numRecords * 218 + 1
  swap
  · rw [if_pos hl]; simp [hl]
  rw [if_neg (not_not.mpr hl)] at hne ⊢
  obtain ⟨a1, a2⟩ := readReplies_spec P t.hops.zipIdx.reverse (records 218 payload) (t.hops.reverse.map fun h => (h.router, none)) []
    (nodup_idx _) (by
      intro x hx
      rw [List.mem_reverse] at hx
      simpa using (List.mem_zipIdx hx).2.1)
  rw [agrees_iff] at a1 a2
  generalize readReplies P t.hops.zipIdx.reverse _ _ [] = out at *
  match out, a1, a2, hne with
  | none, _, _, hne => exact absurd rfl hne
  | some (.error rep), a1, _, _ =>
    have := (a1 rep rfl).2
    simp [this]
  | some (.ok (rep, acc)), _, a2, _ =>
    simp only
    rcases (a2 rep acc rfl).2 with ⟨b1, b2⟩ | ⟨b1, b2, _⟩
    · have e : acc = t.hops.reverse := by
        rw [b1, List.nil_append, List.map_reverse]; exact congrArg _ (List.zipIdx_map_fst 0 t.hops)
      subst e
      simp only [List.length_reverse, ne_eq, not_true, if_false, Built.tunnel.injEq, List.reverse_reverse, hl, b2, and_true]
      exact eq_comm
    · simp only [List.length_nil, List.length_reverse, List.length_zipIdx, Nat.zero_add] at b1
      rw [if_pos (by omega)]
      simp [b2]

/-- C110, other messages: without the records of a reply nothing is established. -/
theorem C110_no_reply_no_tunnel (P : Prims) (t : Pending) (m : Message) (hp : replyPayload P t m = some none) (hops : List Hop) :
    tryBuild P t m ≠ .tunnel hops := by
  unfold tryBuild
  simp [hp]

/-- C110, failures: the report of a failed build names a router that refused or whose answer could not be read. The code relies on it. -/
theorem C110_failure_names_someone (P : Prims) (t : Pending) (m : Message) (report : Report) (hne : t.hops ≠ [])
    (h : tryBuild P t m = .failed report) : ∃ e ∈ report, ∃ o, e.2 = some o ∧ o ≠ .accepted := by
  have key : ∀ r : Report, r = Report.set (t.hops.reverse.map fun h => (h.router, none)) 0 .invalid →
      ∃ e ∈ r, ∃ o, e.2 = some o ∧ o ≠ Outcome.accepted := by
    rintro r rfl
    have hl : 0 < (t.hops.reverse.map fun h => ((h.router, none) : Bytes × Option Outcome)).length := by
      simpa using List.length_pos_iff.mpr hne
    refine ⟨(((t.hops.reverse.map fun h => ((h.router, none) : Bytes × Option Outcome))[0]).1, some .invalid), ?_, _, rfl, by simp⟩
    apply List.mem_of_getElem? (i := 0)
    rw [set_get, if_pos rfl, List.getElem?_eq_getElem hl]
    rfl
  unfold tryBuild at h
  dsimp only at h
  split at h
  · cases h
  · injection h with h; exact key _ h.symm
  · rename_i payload _
    split at h
    · injection h with h; exact key _ h.symm
    · obtain ⟨a1, a2⟩ := readReplies_spec P t.hops.zipIdx.reverse (records 218 payload) (t.hops.reverse.map fun h => (h.router, none)) []
        (nodup_idx _) (by
          intro x hx
          rw [List.mem_reverse] at hx
          simpa using (List.mem_zipIdx hx).2.1)
      have fin : ∀ rep, Culprit t.hops.zipIdx.reverse rep → ∃ e ∈ rep, ∃ o, e.2 = some o ∧ o ≠ Outcome.accepted :=
        fun rep ⟨x, _, e, h1, h2⟩ => ⟨e, List.mem_of_getElem? h1, h2⟩
      split at h
      · cases h
      · rename_i rep e
        injection h with h
        subst h
        exact fin _ (a1 _ e).1
      · rename_i rep acc e
        split at h
        · rename_i hacc
          injection h with h
          subst h
          rcases (a2 _ _ e).2 with ⟨b1, _⟩ | ⟨_, _, b3⟩
          · exfalso
            apply hacc
            rw [b1]
            simp
          · exact fin _ b3
        · cases h

/-! ## C111: answers to long build requests -/

/-- The requester's long record for a router: the beginning of its hash, an ephemeral key and the sealed request. -/
def longRecord (P : Prims) (hash pub esk : Bytes) (plain : Bytes) : Bytes :=
  let s := outSession P pub esk .participant
  hash.take 16 ++ P.pub esk ++ P.seal s.aead 0 s.state plain

/-- The state with which the requester reads the answer. -/
def longState (P : Prims) (pub esk plain : Bytes) : Bytes :=
  let s := outSession P pub esk .participant
  P.sha (s.state ++ P.seal s.aead 0 s.state plain)

/-- What the router sends on: a request if there is a next hop, a reply through the gateway of the reply tunnel otherwise. -/
def longForward (P : Prims) (v : VarRecord) (exp : Duration) (payload : Bytes) : Bytes :=
  if v.role = .outboundEndpoint then
    (Message.mk .tunnelGateway v.nextMessageId exp (TunnelGateway.mk v.nextTunnelId
      ((Message.mk .variableTunnelBuildReply v.nextMessageId exp payload).serializeStandard P.sha)).serialize).serializeShort
  else (Message.mk .variableTunnelBuild v.nextMessageId exp payload).serializeShort

theorem stampLong_status (s : UInt8) (r : Bytes) (h : r.length = 528) : ((stampLong s r).take 512)[511]? = some s := by
  have : 511 < r.length := by omega
  simp [stampLong, List.getElem?_take, this]

theorem admit_iff (t : Transit) (ok : Bool) (id nextId : Nat) (nr : Bytes) (role : HopRole) (keys : Keys) :
    ((t.admit ok id nextId nr role keys).2 = true ↔ t.canAccept = true ∧ ok = true ∧ t.table.tunnels id = none) ∧
    ((t.admit ok id nextId nr role keys).2 = false → (t.admit ok id nextId nr role keys).1 = t) ∧
    ((t.admit ok id nextId nr role keys).2 = true → (t.admit ok id nextId nr role keys).1.tunnels =
      t.tunnels ++ [⟨id, nextId, nr, role, keys, t.table.next⟩] ∧
      (t.admit ok id nextId nr role keys).1.table = t.table.install id 64) := by
  unfold Transit.admit Routing.Table.tryAdd
  cases t.canAccept <;> cases ok <;> cases h : t.table.tunnels id <;> simp [h]

/-- C111: a router that finds a long build request for itself accepts it exactly if it has room, the sender wants it to be the endpoint of an
outbound tunnel and the tunnel id is free; it registers that tunnel then and nothing otherwise; and the requester, who knows only what it
sent, finds the true decision in the record it made for the router, with all other records as they were. -/
theorem C111_long_request_answered {P : Prims} (hP : P.Lawful) (E : Env) (t : Transit) (v : VarRecord) (plain esk : Bytes)
    (hparse : VarRecord.parse E plain = some v) (hplain : plain.length = 464) (hh : t.hash.length = 32)
    (ty : MessageType) (id : Nat) (exp : Duration) (c : UInt8) (pre suf : List Bytes)
    (hsized : ∀ r ∈ pre ++ suf, r.length = 528) (hclash : ∀ r ∈ pre, r.take 16 ≠ t.hash.take 16) :
    ∃ t' yes answer reply,
      t.handleVariable P E ⟨ty, id, exp, c :: (pre ++ longRecord P t.hash (P.pub t.sk) esk plain :: suf).flatten⟩ =
        some (t', ⟨v.nextRouter, longForward P v exp (c :: (pre ++ answer :: suf).flatten), yes⟩) ∧
      (yes = true ↔ t.canAccept = true ∧ v.role = .outboundEndpoint ∧ t.table.tunnels v.tunnelId = none) ∧
      (yes = false → t' = t) ∧
      (yes = true → t'.tunnels = t.tunnels ++ [⟨v.tunnelId, v.nextTunnelId, v.nextRouter, v.role, ⟨none, v.ivKey, v.layerKey, []⟩, t.table.next⟩]
        ∧ t'.table = t.table.install v.tunnelId 64) ∧
      answer.length = 528 ∧
      P.unseal (mix P (P.dh esk (P.pub t.sk))).1 0 (longState P (P.pub t.sk) esk plain) answer = some reply ∧
      reply[511]? = some (if yes then 0 else 30) := by
  generalize hR : longRecord P t.hash (P.pub t.sk) esk plain = R
  obtain ⟨a1, a2, _⟩ := session_agree hP t.sk esk .participant
  have h1 : (t.hash.take 16).length = 16 := by simp [hh]
  have h2 := hP.pub esk
  have h3 : ∀ k ad, (P.seal k 0 ad plain).length = 480 := by intro k ad; rw [seal_length hP, hplain]
  have hRl : R.length = 528 := by rw [← hR]; simp only [longRecord, List.length_append, h1, h2, h3]
  have htake : R.take 16 = t.hash.take 16 := by
    rw [← hR, longRecord, List.append_assoc]; exact List.take_left' h1
  have heph : (R.drop 16).take 32 = P.pub esk := by
    rw [← hR, longRecord, List.append_assoc, List.drop_left' h1]; exact List.take_left' h2
  have hct : R.drop 48 = P.seal (outSession P (P.pub t.sk) esk .participant).aead 0 (outSession P (P.pub t.sk) esk .participant).state plain := by
    rw [← hR, longRecord]
    exact List.drop_left' (by rw [List.length_append, h1, h2])
  have hs' : ∀ r ∈ pre ++ R :: suf, r.length = 528 := by
    intro r hr
    simp only [List.mem_append, List.mem_cons] at hr hsized
    rcases hr with hr | rfl | hr
    · exact hsized r (Or.inl hr)
    · exact hRl
    · exact hsized r (Or.inr hr)
  have hfind := findLocal_eq 528 (by omega) t.hash c pre R suf hs' hclash htake
  have hrec := records_cons 528 (by omega) c _ hs'
  have hget : (pre ++ R :: suf)[pre.length]? = some R := by simp
  have hck : (inSession P t.sk (P.pub esk)).ck = (mix P (P.dh esk (P.pub t.sk))).1 := by
    simp only [inSession, hP.dh t.sk esk]
  obtain ⟨b1, b2, b3⟩ := admit_iff t (v.role == .outboundEndpoint) v.tunnelId v.nextTunnelId v.nextRouter v.role
    ⟨none, v.ivKey, v.layerKey, []⟩
  simp only [Transit.handleVariable, hfind, hrec, hget, heph, hct, a1, a2, unseal_seal hP, hparse, hck,
    Option.bind_eq_bind, Option.bind_some, List.take_succ_cons, List.take_zero, set_append_mid]
  generalize t.admit (v.role == .outboundEndpoint) v.tunnelId v.nextTunnelId v.nextRouter v.role
    ⟨none, v.ivKey, v.layerKey, []⟩ = a at *
  obtain ⟨t', yes⟩ := a
  refine ⟨t', yes, _, _, ?_, by simpa using b1, b2, b3, ?_, unseal_seal hP _ _ _ _, stampLong_status _ R hRl⟩
  · simp only [Option.pure_def, Option.some.injEq, Prod.mk.injEq, true_and, longForward, longState, Reply.mk.injEq, and_true,
      List.singleton_append]
    cases v.role <;> rfl
  · rw [seal_length hP]
    simp [stampLong, hRl]

/-! ## Checks -/

def demoVar : VarRecord := ⟨1, 2, List.replicate 32 7, List.replicate 32 5, List.replicate 32 6, .outboundEndpoint, 9⟩
def demoPlain : Bytes := varHead demoVar (List.replicate 32 1) (List.replicate 16 2) 3 4 ++ [0, 0] ++ List.replicate (464 - 170) 0

/-- A request that a router with room accepts, between two records of others; it is refused without room. -/
example : (demoPlain.length = 464 ∧ VarRecord.parse Env.sample demoPlain = some demoVar ∧ (router 3 1).canAccept = true ∧
      (router 3 1).table.tunnels 1 = none) ∧
    (((router 3 1).handleVariable toyQ Env.sample ⟨.variableTunnelBuild, 8, 60000000000,
      3 :: ([List.replicate 528 1] ++ longRecord toyQ (router 3 1).hash (toyQ.pub [3]) [9] demoPlain :: [List.replicate 528 2]).flatten⟩).map
        fun x => (x.1.tunnels.map (·.id), x.2.feedback)) = some ([1], true) ∧
    (((router 3 0).handleVariable toyQ Env.sample ⟨.variableTunnelBuild, 8, 60000000000,
      3 :: ([List.replicate 528 1] ++ longRecord toyQ (router 3 1).hash (toyQ.pub [3]) [9] demoPlain :: [List.replicate 528 2]).flatten⟩).map
        fun x => (x.1.tunnels.map (·.id), x.2.feedback)) = some ([], false) := by
  decide +kernel

end Emissary.TBuild
