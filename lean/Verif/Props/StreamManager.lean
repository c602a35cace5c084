import Verif.Model.StreamManager
import Verif.Props.StreamPacket
/-!
# Properties of the stream manager (C10, C63, C64, C65, C66, C67)
-/
namespace Emissary.Mgr
open Emissary Emissary.Prim Emissary.Pkt

/-! ## Specification -/

/-- `pkt` is a SYN that names destination `d` and carries a signature over the packet with the signature field zeroed,
by `d`'s key or by the transient key in the packet (which the parser only accepts with `d`'s certification, C59). -/
structure SignedSyn (E : Env) (pkt : Bytes) (p : Packet) (d : Destination) : Prop where
  parse : Packet.parse E pkt = some p
  syn : p.flags.synchronize = true
  names : p.flags.destination = some d
  signed : ∃ key sig pre field, (p.flags.offline = some key ∨ p.flags.offline = none ∧ key = d.key) ∧
    p.flags.signature = some sig ∧ pkt = pre ++ field ++ p.payload ∧ field.length = key.sigLen ∧
    E.verify key (pre ++ List.replicate key.sigLen 0 ++ p.payload) sig = true

/-- The packet repeats the hash of the destination it is meant for (replay protection). -/
def AddressedTo (p : Packet) (hash : Bytes) : Prop := p.nacks.length = 8 ∧ (p.nacks.map (be 4)).flatten = hash

/-! ## Parsing facts -/

theorem parse_suffix {E : Env} {pkt : Bytes} {p : Packet} (h : Packet.parse E pkt = some p) :
    p.payload <:+ pkt := by
  have hn : ∀ (n : Nat) (i r : Bytes) (l : List Nat), takeNacks n i = some (l, r) → r <:+ i := by
    intro n
    induction n with
    | zero => intro i r l h; simp [takeNacks] at h; rw [h.2]; exact List.suffix_rfl
    | succ n ih =>
      intro i r l h
      simp only [takeNacks] at h
      unbind h with ⟨a, r1⟩ e1
      unbind h with ⟨t, r2⟩ e2
      simp only [Option.pure_def, Option.some.injEq, Prod.mk.injEq] at h
      obtain ⟨_, rfl⟩ := h
      exact (ih _ _ _ e2).trans (beU_suffix e1)
  unfold Packet.parse at h
  unbind h with ⟨send, r1⟩ e1
  unbind h with ⟨recv, r2⟩ e2
  unbind h with ⟨seq, r3⟩ e3
  unbind h with ⟨ack, r4⟩ e4
  unbind h with ⟨n, r5⟩ e5
  unbind h with ⟨nacks, r6⟩ e6
  unbind h with ⟨delay, r7⟩ e7
  unbind h with ⟨flags, r8⟩ e8
  unbind h with ⟨size, r9⟩ e9
  unbind h with ⟨options, r10⟩ e10
  unbind h with ⟨f, r11⟩ e11
  simp only [Option.pure_def, Option.some.injEq] at h
  subst h
  exact (takeN_suffix e10).trans ((beU_suffix e9).trans ((beU_suffix e8).trans ((beU_suffix e7).trans
    ((hn _ _ _ _ e6).trans ((beU_suffix e5).trans ((beU_suffix e4).trans ((beU_suffix e3).trans
    ((beU_suffix e2).trans (beU_suffix e1)))))))))

theorem overwrite_mid (pre field post z : Bytes) (h : field.length = z.length) :
    overwrite (pre ++ field ++ post) ((pre ++ field ++ post).length - post.length - z.length) z = pre ++ z ++ post := by
  have e : (pre ++ field ++ post).length - post.length - z.length = pre.length := by
    simp only [List.length_append]; omega
  rw [e, overwrite, List.drop_left' (by simp [h]), List.append_assoc pre field, List.take_left]

/-- What the manager's signature check establishes, and that it accepts everything that satisfies the specification. -/
theorem verifySyn_iff {E : Env} {pkt : Bytes} {p : Packet} {d : Destination} (hp : Packet.parse E pkt = some p)
    (hs : p.flags.synchronize = true) : verifySyn E pkt p = some d ↔ SignedSyn E pkt p d := by
  obtain ⟨front, hfront⟩ := parse_suffix hp
  constructor
  · intro h
    unfold verifySyn at h
    unbind h with sig e1
    unbind h with d' e2
    split at h
    · cases h
    rename_i hlen
    split at h
    · rename_i hv
      simp only [Option.some.injEq] at h
      subst h
      refine ⟨hp, hs, e2, p.flags.offline.getD d'.key, sig,
        front.take (front.length - (p.flags.offline.getD d'.key).sigLen),
        front.drop (front.length - (p.flags.offline.getD d'.key).sigLen), ?_, e1, ?_, ?_, ?_⟩
      · cases p.flags.offline with
        | none => exact Or.inr ⟨rfl, rfl⟩
        | some k => exact Or.inl rfl
      · rw [List.take_append_drop, hfront]
      · rw [List.length_drop]
        have : pkt.length = front.length + p.payload.length := by rw [← hfront, List.length_append]
        omega
      · generalize p.flags.offline.getD d'.key = key at hv hlen ⊢
        have hl : pkt.length = front.length + p.payload.length := by rw [← hfront, List.length_append]
        have := overwrite_mid (front.take (front.length - key.sigLen)) (front.drop (front.length - key.sigLen))
          p.payload (List.replicate key.sigLen 0) (by simp only [List.length_drop, List.length_replicate]; omega)
        rw [List.take_append_drop, hfront, List.length_replicate] at this
        rw [← this]; exact hv
    · cases h
  · rintro ⟨_, _, hn, key, sig, pre, field, hk, hsig, hpkt, hf, hv⟩
    have hkey : p.flags.offline.getD d.key = key := by
      rcases hk with hk | ⟨hk, rfl⟩ <;> simp [hk]
    unfold verifySyn
    have h3 : pkt.length = pre.length + field.length + p.payload.length := by
      rw [hpkt]; simp only [List.length_append]
    have := overwrite_mid pre field p.payload (List.replicate key.sigLen 0) (by simpa using hf)
    rw [← hpkt, List.length_replicate] at this
    simp only [hsig, hn, bind_some_val, hkey]
    rw [if_neg (by omega), this, hv]
    rfl

theorem peek_parse {E : Env} {pkt : Bytes} {p : Packet} {info : PeekInfo} (h : Packet.parse E pkt = some p)
    (hi : Packet.peek pkt = some info) :
    info.recvStreamId = p.recvStreamId ∧ info.sendStreamId = p.sendStreamId ∧ info.flags = p.flags.flags := by
  have := C11_peek_agrees E pkt p h
  rw [this] at hi
  simp only [Option.some.injEq] at hi
  subst hi
  exact ⟨rfl, rfl, rfl⟩

/-! ## Invariant over histories -/

/-- A SYN for stream `id`, signed by a destination with hash `dest` and addressed to `loc`, was received. -/
def SynReceived (E : Env) (hist : List Op) (loc dest : Bytes) (id : Nat) : Prop :=
  ∃ pkt room sock rnd p d, Op.packet pkt room sock rnd ∈ hist ∧ SignedSyn E pkt p d ∧ AddressedTo p loc ∧
    d.hash = dest ∧ p.recvStreamId = id

structure Inv (E : Env) (loc : Destination) (m : Mgr) (log : List Out) (hist : List Op) : Prop where
  locEq : m.destination = loc
  act : ∀ id a, m.active id = some a → ∃ b, Out.opened a.dest b a.uid id ∈ log
  fresh : ∀ d b u i, Out.opened d b u i ∈ log → u < m.nextUid
  uniq : ∀ d b u i d' b' i', Out.opened d b u i ∈ log → Out.opened d' b' u i' ∈ log → d = d' ∧ b = b' ∧ i = i'
  del : ∀ u pkt, Out.deliver u pkt ∈ log → ∃ d b i info, Out.opened d b u i ∈ log ∧
    Packet.peek pkt = some info ∧ info.recvStreamId = i
  pend : ∀ id s, m.pendIn id = some s → SynReceived E hist loc.hash s.dest id
  inb : ∀ d u i, Out.opened d true u i ∈ log → SynReceived E hist loc.hash d i
  pout : ∀ id o, m.pendOut id = some o → Op.create o.dest id ∈ hist
  outb : ∀ d u i, Out.opened d false u i ∈ log → ∃ sid pkt room sock rnd p d', Op.create d sid ∈ hist ∧
    Op.packet pkt room sock rnd ∈ hist ∧ SignedSyn E pkt p d' ∧ p.sendStreamId = sid ∧ p.recvStreamId = i

theorem SynReceived.mono {E : Env} {h h' : List Op} {l d : Bytes} {id : Nat} (hs : SynReceived E h l d id)
    (hsub : ∀ x ∈ h, x ∈ h') : SynReceived E h' l d id := by
  obtain ⟨pkt, room, sock, rnd, p, d, h1, h2⟩ := hs
  exact ⟨pkt, room, sock, rnd, p, d, hsub _ h1, h2⟩

theorem Inv.init (E : Env) (loc : Destination) : Inv E loc (Mgr.new loc) [] [] := by
  constructor <;> simp [Mgr.new]

/-- Outputs that neither open a stream nor deliver a packet. -/
def Quiet (o : Out) : Prop :=
  (∀ d b u i, o ≠ .opened d b u i) ∧ (∀ u p, o ≠ .deliver u p)

/-- A step that only forgets streams and changes nothing the invariant looks at otherwise. -/
theorem Inv.shrink {E : Env} {loc : Destination} {m m' : Mgr} {log : List Out} {hist : List Op} (op : Op)
    (os : List Out) (h : Inv E loc m log hist) (hq : ∀ o ∈ os, Quiet o) (h0 : m'.destination = m.destination)
    (h1 : ∀ id a, m'.active id = some a → m.active id = some a) (h2 : m'.nextUid = m.nextUid)
    (h3 : ∀ id s, m'.pendIn id = some s → ∃ s', m.pendIn id = some s' ∧ s'.dest = s.dest)
    (h4 : ∀ id o, m'.pendOut id = some o → (∃ o', m.pendOut id = some o' ∧ o'.dest = o.dest) ∨ op = .create o.dest id) :
    Inv E loc m' (log ++ os) (hist ++ [op]) := by
  have ho : ∀ d b u i, Out.opened d b u i ∈ log ++ os ↔ Out.opened d b u i ∈ log := by
    intro d b u i
    simp only [List.mem_append, or_iff_left_iff_imp]
    intro hx; exact absurd rfl ((hq _ hx).1 d b u i)
  have hd : ∀ u p, Out.deliver u p ∈ log ++ os ↔ Out.deliver u p ∈ log := by
    intro u p
    simp only [List.mem_append, or_iff_left_iff_imp]
    intro hx; exact absurd rfl ((hq _ hx).2 u p)
  have hsub : ∀ x ∈ hist, x ∈ hist ++ [op] := fun x hx => List.mem_append_left _ hx
  constructor
  · rw [h0, h.locEq]
  · intro id a ha
    obtain ⟨b, hb⟩ := h.act id a (h1 id a ha)
    exact ⟨b, (ho _ _ _ _).mpr hb⟩
  · intro d b u i hx; rw [h2]; exact h.fresh d b u i ((ho _ _ _ _).mp hx)
  · intro d b u i d' b' i' hx hy
    exact h.uniq d b u i d' b' i' ((ho _ _ _ _).mp hx) ((ho _ _ _ _).mp hy)
  · intro u pkt hx
    obtain ⟨d, b, i, info, hy, hz⟩ := h.del u pkt ((hd _ _).mp hx)
    exact ⟨d, b, i, info, (ho _ _ _ _).mpr hy, hz⟩
  · intro id s hx
    obtain ⟨s', hs', he⟩ := h3 id s hx
    rw [← he]; exact (h.pend id s' hs').mono hsub
  · intro d u i hx; exact (h.inb d u i ((ho _ _ _ _).mp hx)).mono hsub
  · intro id o hx
    rcases h4 id o hx with ⟨o', ho', he⟩ | he
    · rw [← he]; exact hsub _ (h.pout id o' ho')
    · simp [he]
  · intro d u i hx
    obtain ⟨sid, pkt, room, sock, rnd, p, d', a1, a2, a3⟩ := h.outb d u i ((ho _ _ _ _).mp hx)
    exact ⟨sid, pkt, room, sock, rnd, p, d', hsub _ a1, hsub _ a2, a3⟩

/-- Spawning a stream. -/
theorem Inv.spawn {E : Env} {loc : Destination} {m : Mgr} {log : List Out} {hist : List Op} (op : Op)
    (h : Inv E loc m log hist) (id : Nat) (dest : Bytes) (b : Bool)
    (hin : b = true → SynReceived E (hist ++ [op]) loc.hash dest id)
    (hout : b = false → ∃ sid pkt room sock rnd p d', Op.create dest sid ∈ hist ++ [op] ∧
      Op.packet pkt room sock rnd ∈ hist ++ [op] ∧ SignedSyn E pkt p d' ∧ p.sendStreamId = sid ∧ p.recvStreamId = id) :
    Inv E loc (m.spawn id dest b).1 (log ++ (m.spawn id dest b).2) (hist ++ [op]) := by
  have hsub : ∀ x ∈ hist, x ∈ hist ++ [op] := fun x hx => List.mem_append_left _ hx
  simp only [Mgr.spawn]
  have ho : ∀ d b' u i, Out.opened d b' u i ∈ log ++ [Out.opened dest b m.nextUid id] ↔
      Out.opened d b' u i ∈ log ∨ (d = dest ∧ b' = b ∧ u = m.nextUid ∧ i = id) := by
    intro d b' u i; simp
  have hd : ∀ u p, Out.deliver u p ∈ log ++ [Out.opened dest b m.nextUid id] ↔ Out.deliver u p ∈ log := by
    intro u p; simp
  constructor
  · exact h.locEq
  · intro id' a ha
    simp only [upd] at ha
    split at ha
    · rename_i he
      simp only [Option.some.injEq] at ha
      subst ha
      exact ⟨b, (ho _ _ _ _).mpr (Or.inr ⟨rfl, rfl, rfl, he⟩)⟩
    · obtain ⟨b', hb⟩ := h.act id' a ha
      exact ⟨b', (ho _ _ _ _).mpr (Or.inl hb)⟩
  · intro d b' u i hx
    rcases (ho _ _ _ _).mp hx with hx | ⟨_, _, rfl, _⟩
    · exact Nat.lt_succ_of_lt (h.fresh _ _ _ _ hx)
    · exact Nat.lt_succ_self _
  · intro d b' u i d' b'' i' hx hy
    rcases (ho _ _ _ _).mp hx with hx' | ⟨e1, e2, e3, e4⟩ <;>
    rcases (ho _ _ _ _).mp hy with hy' | ⟨f1, f2, f3, f4⟩
    · exact h.uniq _ _ _ _ _ _ _ hx' hy'
    · have := h.fresh _ _ _ _ hx'; omega
    · have := h.fresh _ _ _ _ hy'; omega
    · exact ⟨e1.trans f1.symm, e2.trans f2.symm, e4.trans f4.symm⟩
  · intro u pkt hx
    obtain ⟨d, b', i, info, hy, hz⟩ := h.del u pkt ((hd _ _).mp hx)
    exact ⟨d, b', i, info, (ho _ _ _ _).mpr (Or.inl hy), hz⟩
  · intro id' s hx; exact (h.pend id' s hx).mono hsub
  · intro d u i hx
    rcases (ho _ _ _ _).mp hx with hx | ⟨rfl, hb, rfl, rfl⟩
    · exact (h.inb d u i hx).mono hsub
    · exact hin hb.symm
  · intro id' o hx; exact hsub _ (h.pout id' o hx)
  · intro d u i hx
    rcases (ho _ _ _ _).mp hx with hx | ⟨rfl, hb, rfl, rfl⟩
    · obtain ⟨sid, pkt, room, sock, rnd, p, d', a1, a2, a3⟩ := h.outb d u i hx
      exact ⟨sid, pkt, room, sock, rnd, p, d', hsub _ a1, hsub _ a2, a3⟩
    · exact hout hb.symm

theorem quiet_send (d : Bytes) (b : Builder) : Quiet (.send d b) := by simp [Quiet]

theorem Inv.onPacket {E : Env} {loc : Destination} {m m' : Mgr} {log os : List Out} {hist : List Op}
    (h : Inv E loc m log hist) (pkt : Bytes) (room sock : Bool) (rnd : Nat)
    (hs : m.onPacket E pkt room sock rnd = some (m', os)) :
    Inv E loc m' (log ++ os) (hist ++ [.packet pkt room sock rnd]) := by
  have hsub : ∀ x ∈ hist, x ∈ hist ++ [Op.packet pkt room sock rnd] := fun x hx => List.mem_append_left _ hx
  unfold Mgr.onPacket at hs
  unbind hs with info ei
  split at hs
  · rename_i a ha
    simp only [Option.some.injEq, Prod.mk.injEq] at hs
    obtain ⟨rfl, rfl⟩ := hs
    cases room with
    | false => exact h.shrink _ _ (by simp) rfl (fun _ _ x => x) rfl (fun _ s x => ⟨s, x, rfl⟩) (fun _ o x => Or.inl ⟨o, x, rfl⟩)
    | true =>
      obtain ⟨b, hb⟩ := h.act _ _ ha
      have ho : ∀ d b u i, Out.opened d b u i ∈ log ++ [Out.deliver a.uid pkt] ↔ Out.opened d b u i ∈ log := by
        intro d b u i; simp
      constructor
      · exact h.locEq
      · intro id x hx
        obtain ⟨b, hb⟩ := h.act id x hx
        exact ⟨b, (ho _ _ _ _).mpr hb⟩
      · intro d b u i hx; exact h.fresh d b u i ((ho _ _ _ _).mp hx)
      · intro d b u i d' b' i' hx hy
        exact h.uniq d b u i d' b' i' ((ho _ _ _ _).mp hx) ((ho _ _ _ _).mp hy)
      · intro u p hx
        have hx' : Out.deliver u p ∈ log ∨ (u = a.uid ∧ p = pkt) := by simpa using hx
        rcases hx' with hx' | ⟨rfl, rfl⟩
        · obtain ⟨d, b, i, info, hy, hz⟩ := h.del u p hx'
          exact ⟨d, b, i, info, (ho _ _ _ _).mpr hy, hz⟩
        · exact ⟨_, b, _, info, (ho _ _ _ _).mpr hb, ei, rfl⟩
      · intro id s hx; exact (h.pend id s hx).mono hsub
      · intro d u i hx; exact (h.inb d u i ((ho _ _ _ _).mp hx)).mono hsub
      · intro id o hx; exact hsub _ (h.pout id o hx)
      · intro d u i hx
        obtain ⟨sid, pkt, room, sock, rnd, p, d', a1, a2, a3⟩ := h.outb d u i ((ho _ _ _ _).mp hx)
        exact ⟨sid, pkt, room, sock, rnd, p, d', hsub _ a1, hsub _ a2, a3⟩
  · rename_i ha
    split at hs
    · rename_i s hps
      simp only [Option.some.injEq] at hs
      unfold Mgr.onPending at hs
      split at hs
      · simp only [Prod.mk.injEq] at hs
        obtain ⟨rfl, rfl⟩ := hs
        exact h.shrink _ _ (by simp) rfl (fun _ _ x => x) rfl (fun _ s x => ⟨s, x, rfl⟩) (fun _ o x => Or.inl ⟨o, x, rfl⟩)
      · rename_i p hp
        simp only at hs
        have hpin : ∀ (st : Stream.PendingStream) id s', upd m.pendIn info.recvStreamId (some { s with st := st }) id = some s' →
            ∃ s'', m.pendIn id = some s'' ∧ s''.dest = s'.dest := by
          intro st id s' hx
          simp only [upd] at hx
          split at hx
          · rename_i he
            simp only [Option.some.injEq] at hx
            subst hx; subst he
            exact ⟨s, hps, rfl⟩
          · exact ⟨s', hx, rfl⟩
        have hpdrop : ∀ id s', upd m.pendIn info.recvStreamId none id = some s' →
            ∃ s'', m.pendIn id = some s'' ∧ s''.dest = s'.dest := by
          intro id s' hx
          simp only [upd] at hx
          split at hx
          · cases hx
          · exact ⟨s', hx, rfl⟩
        split at hs <;> (
          simp only [Prod.mk.injEq] at hs
          obtain ⟨rfl, rfl⟩ := hs)
        · exact h.shrink _ _ (by simp) rfl (fun _ _ x => x) rfl (hpin _) (fun _ o x => Or.inl ⟨o, x, rfl⟩)
        · exact h.shrink _ _ (by simp [Quiet]) rfl (fun _ _ x => x) rfl (hpin _) (fun _ o x => Or.inl ⟨o, x, rfl⟩)
        · exact h.shrink _ _ (by simp [Quiet]) rfl (fun _ _ x => x) rfl hpdrop (fun _ o x => Or.inl ⟨o, x, rfl⟩)
        · exact h.shrink _ _ (by simp) rfl (fun _ _ x => x) rfl hpdrop (fun _ o x => Or.inl ⟨o, x, rfl⟩)
    · rename_i hpn
      split at hs
      · rename_i hsyn
        unfold Mgr.onSyn at hs
        unbind hs with p ep
        unbind hs with d ed
        obtain ⟨hr, _, hf⟩ := peek_parse ep ei
        have hsy : p.flags.synchronize = true := by unfold Flags.synchronize; rw [← hf]; exact hsyn.1
        have hsigned := (verifySyn_iff ep hsy).mp ed
        have hmem : Op.packet pkt room sock rnd ∈ hist ++ [Op.packet pkt room sock rnd] := by simp
        split at hs
        · rename_i o ho
          simp only [Option.some.injEq] at hs
          have h' : Inv E loc { m with pendOut := upd m.pendOut p.sendStreamId none } log hist := by
            refine ⟨h.locEq, h.act, h.fresh, h.uniq, h.del, h.pend, h.inb, ?_, h.outb⟩
            intro id o hx
            simp only [upd] at hx
            split at hx
            · cases hx
            · exact h.pout id o hx
          have := h'.spawn (.packet pkt room sock rnd) p.recvStreamId o.dest false (by simp)
            (fun _ => ⟨p.sendStreamId, pkt, room, sock, rnd, p, d, hsub _ (h.pout _ _ ho), hmem, hsigned, rfl, rfl⟩)
          rw [hs] at this
          exact this
        · rename_i ho
          unfold Mgr.onInbound at hs
          split at hs
          · cases hs
          rename_i hn8
          split at hs
          · cases hs
          rename_i hnl
          have hrec : SynReceived E (hist ++ [Op.packet pkt room sock rnd]) loc.hash d.hash p.recvStreamId :=
            ⟨pkt, room, sock, rnd, p, d, hmem, hsigned,
              ⟨Decidable.not_not.mp hn8, by rw [← h.locEq]; exact Decidable.not_not.mp hnl⟩, rfl, rfl⟩
          split at hs
          · simp only [Option.some.injEq] at hs
            have := h.spawn (.packet pkt room sock rnd) p.recvStreamId d.hash true (fun _ => hrec) (by simp)
            rw [hs] at this
            exact this
          · simp only [Option.some.injEq, Prod.mk.injEq] at hs
            obtain ⟨rfl, rfl⟩ := hs
            have h' := h.shrink (m' := m) (.packet pkt room sock rnd) [Out.send d.hash (synAck m.destination p.recvStreamId rnd)]
              (by simp [Quiet]) rfl (fun _ _ x => x) rfl (fun _ s x => ⟨s, x, rfl⟩) (fun _ o x => Or.inl ⟨o, x, rfl⟩)
            refine ⟨h'.locEq, h'.act, h'.fresh, h'.uniq, h'.del, ?_, h'.inb, h'.pout, h'.outb⟩
            intro id s hx
            simp only [upd] at hx
            split at hx
            · rename_i he
              simp only [Option.some.injEq] at hx
              subst hx; subst he
              exact hrec
            · exact h'.pend id s hx
      · unbind hs with p ep
        simp only [Option.pure_def, Option.some.injEq, Prod.mk.injEq] at hs
        obtain ⟨rfl, rfl⟩ := hs
        exact h.shrink _ _ (by simp) rfl (fun _ _ x => x) rfl (fun _ s x => ⟨s, x, rfl⟩) (fun _ o x => Or.inl ⟨o, x, rfl⟩)

theorem ite_none_some {α : Type} {c : Prop} [Decidable c] {x : Option α} {y : α}
    (h : (if c then none else x) = some y) : x = some y := by
  split at h
  · cases h
  · exact h

theorem Inv.step {E : Env} {loc : Destination} {m : Mgr} {log : List Out} {hist : List Op}
    (h : Inv E loc m log hist) (op : Op) :
    Inv E loc (m.step E op).1 (log ++ (m.step E op).2) (hist ++ [op]) := by
  have hid : ∀ os, (∀ o ∈ os, Quiet o) → Inv E loc m (log ++ os) (hist ++ [op]) := fun os hq =>
    h.shrink op os hq rfl (fun _ _ x => x) rfl (fun _ s x => ⟨s, x, rfl⟩) (fun _ o x => Or.inl ⟨o, x, rfl⟩)
  cases op with
  | packet b room sock rnd =>
    simp only [Mgr.step]
    cases hs : m.onPacket E b room sock rnd with
    | none => exact hid [] (by simp)
    | some r => exact h.onPacket b room sock rnd hs
  | create r id =>
    simp only [Mgr.step, Mgr.createStream]
    split
    · refine h.shrink _ _ (by simp [Quiet]) rfl (fun _ _ x => x) rfl (fun _ s x => ⟨s, x, rfl⟩) ?_
      intro id' o hx
      simp only [upd] at hx
      split at hx
      · rename_i he
        simp only [Option.some.injEq] at hx
        subst hx; subst he
        exact Or.inr rfl
      · exact Or.inl ⟨o, hx, rfl⟩
    · exact hid [] (by simp)
  | removeSession d =>
    simp only [Mgr.step, Mgr.removeSession]
    exact h.shrink _ _ (by simp) rfl (fun _ _ x => ite_none_some x) rfl (fun _ s x => ⟨s, ite_none_some x, rfl⟩)
      (fun _ o x => Or.inl ⟨o, ite_none_some x, rfl⟩)
  | accept id =>
    simp only [Mgr.step, Mgr.accept]
    split
    · exact hid [] (by simp)
    · rename_i s hps
      have h' : Inv E loc { m with pendIn := upd m.pendIn id none } log hist := by
        refine ⟨h.locEq, h.act, h.fresh, h.uniq, h.del, ?_, h.inb, h.pout, h.outb⟩
        intro id' s' hx
        exact h.pend id' s' (ite_none_some hx)
      exact h'.spawn (.accept id) id s.dest true
        (fun _ => (h.pend id s hps).mono (fun x hx => List.mem_append_left _ hx)) (by simp)
  | finished id uid =>
    simp only [Mgr.step, Mgr.finished]
    split
    · split
      · exact h.shrink _ _ (by simp) rfl (fun _ _ x => x) rfl (fun _ s x => ⟨s, x, rfl⟩) (fun _ o x => Or.inl ⟨o, x, rfl⟩)
      · split
        · exact h.shrink _ _ (by simp [Quiet]) rfl (fun _ _ x => ite_none_some x) rfl (fun _ s x => ⟨s, x, rfl⟩)
            (fun _ o x => Or.inl ⟨o, x, rfl⟩)
        · exact h.shrink _ _ (by simp [Quiet]) rfl (fun _ _ x => ite_none_some x) rfl (fun _ s x => ⟨s, x, rfl⟩)
            (fun _ o x => Or.inl ⟨o, x, rfl⟩)
    · exact hid [] (by simp)
  | synTimer id path =>
    simp only [Mgr.step, Mgr.synTimer]
    split
    · exact hid [] (by simp)
    · rename_i o ho
      split
      · split
        · refine h.shrink _ _ (by simp [Quiet]) rfl (fun _ _ x => x) rfl (fun _ s x => ⟨s, x, rfl⟩) ?_
          intro id' o' hx
          simp only [upd] at hx
          split at hx
          · rename_i he
            simp only [Option.some.injEq] at hx
            subst hx; subst he
            exact Or.inl ⟨o, ho, rfl⟩
          · exact Or.inl ⟨o', hx, rfl⟩
        · exact h.shrink _ _ (by simp [Quiet]) rfl (fun _ _ x => x) rfl (fun _ s x => ⟨s, x, rfl⟩)
            (fun _ o x => Or.inl ⟨o, ite_none_some x, rfl⟩)
      · exact hid [] (by simp)
  | prune s =>
    simp only [Mgr.step, Mgr.prune]
    exact h.shrink _ _ (by simp) rfl (fun _ _ x => x) rfl (fun _ s x => ⟨s, ite_none_some x, rfl⟩)
      (fun _ o x => Or.inl ⟨o, x, rfl⟩)
  | shutdown =>
    simp only [Mgr.step, Mgr.shutdown]
    exact h.shrink _ _ (by simp) rfl (fun _ _ x => x) rfl (fun _ s x => ⟨s, x, rfl⟩) (fun _ o x => Or.inl ⟨o, x, rfl⟩)
  | shutTimer =>
    simp only [Mgr.step, Mgr.shutTimer]
    split
    · exact h.shrink _ _ (by simp [Quiet]) rfl (fun _ _ x => x) rfl (fun _ s x => ⟨s, x, rfl⟩)
        (fun _ o x => Or.inl ⟨o, x, rfl⟩)
    · exact hid [] (by simp)

theorem Inv.run {E : Env} {loc : Destination} (ops : List Op) {m : Mgr} {log : List Out} {hist : List Op}
    (h : Inv E loc m log hist) : Inv E loc (m.run E ops).1 (log ++ (m.run E ops).2) (hist ++ ops) := by
  induction ops generalizing m log hist with
  | nil => simpa [Mgr.run] using h
  | cons op ops ih =>
    have := ih (h.step op)
    simpa [Mgr.run] using this

theorem inv_run (E : Env) (loc : Destination) (ops : List Op) :
    Inv E loc ((Mgr.new loc).run E ops).1 ((Mgr.new loc).run E ops).2 ops := by
  have := Inv.run ops (Inv.init E loc)
  simpa using this

/-! ## C10 -/

/-- C10: in every history, every packet handed to a stream carries the id that stream was opened under (and a stream
is opened under one id, for one destination, once). -/
theorem C10_packets_reach_only_their_stream (E : Env) (loc : Destination) (ops : List Op) (uid : Nat) (pkt : Bytes)
    (h : Out.deliver uid pkt ∈ ((Mgr.new loc).run E ops).2) :
    ∃ dest inbound id info, Out.opened dest inbound uid id ∈ ((Mgr.new loc).run E ops).2 ∧
      Packet.peek pkt = some info ∧ info.recvStreamId = id ∧
      ∀ dest' inbound' id', Out.opened dest' inbound' uid id' ∈ ((Mgr.new loc).run E ops).2 →
        dest' = dest ∧ inbound' = inbound ∧ id' = id := by
  have hi := inv_run E loc ops
  obtain ⟨d, b, i, info, h1, h2, h3⟩ := hi.del uid pkt h
  exact ⟨d, b, i, info, h1, h2, h3, fun d' b' i' h' => hi.uniq _ _ _ _ _ _ _ h' h1⟩

/-- C10: in every history, every inbound stream reported to the session was opened by a received SYN that carries its
id, names its destination, is validly signed by that destination (or a transient key it certified) and is addressed to
the local destination. -/
theorem C10_inbound_streams_are_authenticated (E : Env) (loc : Destination) (ops : List Op) (dest : Bytes)
    (uid id : Nat) (h : Out.opened dest true uid id ∈ ((Mgr.new loc).run E ops).2) :
    ∃ pkt room sock rnd p d, Op.packet pkt room sock rnd ∈ ops ∧ SignedSyn E pkt p d ∧ AddressedTo p loc.hash ∧
      d.hash = dest ∧ p.recvStreamId = id :=
  (inv_run E loc ops).inb dest uid id h

/-- C10: a packet whose id belongs to no stream and that is no SYN changes nothing and has no effect. -/
theorem C10_unknown_packet_ignored (E : Env) (m : Mgr) (pkt : Bytes) (room sock : Bool) (rnd : Nat)
    (info : PeekInfo) (hi : Packet.peek pkt = some info) (ha : m.active info.recvStreamId = none)
    (hp : m.pendIn info.recvStreamId = none) (hs : bit info.flags 0 = false) :
    m.step E (.packet pkt room sock rnd) = (m, []) := by
  simp only [Mgr.step, Mgr.onPacket, hi, bind_some_val, ha, hp, hs]
  cases Packet.parse E pkt <;> rfl

/-- C10: a SYN that is not validly signed by the destination it names changes nothing, whatever the state, unless its
id is that of an existing stream (to which it is then passed). -/
theorem C10_unsigned_syn_ignored (E : Env) (m : Mgr) (pkt : Bytes) (room sock : Bool) (rnd : Nat) (p : Packet)
    (hp : Packet.parse E pkt = some p) (hs : p.flags.synchronize = true) (hn : ∀ d, ¬ SignedSyn E pkt p d)
    (ha : m.active p.recvStreamId = none) (hpi : m.pendIn p.recvStreamId = none) :
    m.step E (.packet pkt room sock rnd) = (m, []) := by
  have hi := C11_peek_agrees E pkt p hp
  have hv : verifySyn E pkt p = none := by
    cases hv : verifySyn E pkt p with
    | none => rfl
    | some d => exact absurd ((verifySyn_iff hp hs).mp hv) (hn d)
  simp only [Mgr.step, Mgr.onPacket, hi, bind_some_val, ha, hpi]
  split
  · simp only [Mgr.onSyn, hp, bind_some_val, hv]; rfl
  · simp only [hp]; rfl

end Emissary.Mgr
