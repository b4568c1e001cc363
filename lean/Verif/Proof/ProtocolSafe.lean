import Verif.Proof.Protocol
import Mathlib.Tactic.NormNum
/-
When the decoders of xprotocol panic.
-/
namespace Toku.Protocol
open Toku.Tx (readMany)
open Toku.Buffer Toku.Spec

/-- A reader that never panics and leaves a buffer that can be read on. -/
def Safe {α : Type} (rd : Buffer → Res (α × Buffer)) : Prop :=
  ∀ (b : Buffer) (r : Bytes), Rd b r → (∃ e, rd b = .err e) ∨ ∃ x b' t, rd b = .ok (x, b') ∧ Rd b' t

theorem safe_u8 : Safe readU8 := by
  intro b r h
  rcases readU8_cases h with ⟨_, e⟩ | ⟨v, t, b', _, e, r', _⟩
  · exact .inl ⟨_, e⟩
  · exact .inr ⟨v, b', t, e, r'⟩

theorem safe_u16 : Safe readU16 := by
  intro b r h
  rcases readU16_cases h with ⟨_, e⟩ | ⟨v, t, b', _, _, e, r', _⟩
  · exact .inl ⟨_, e⟩
  · exact .inr ⟨v, b', t, e, r'⟩

theorem safe_u32 : Safe readU32 := by
  intro b r h
  rcases readU32_cases h with ⟨_, e⟩ | ⟨v, t, b', _, e, r', _⟩
  · exact .inl ⟨_, e⟩
  · exact .inr ⟨v, b', t, e, r'⟩

theorem safe_u64 : Safe readU64 := by
  intro b r h
  rcases readU64_cases h with ⟨_, e⟩ | ⟨v, t, b', _, e, r', _⟩
  · exact .inl ⟨_, e⟩
  · exact .inr ⟨v, b', t, e, r'⟩

theorem safe_varInt : Safe readVarInt := by
  intro b r h
  rcases readVarInt_cases h with ⟨_, e⟩ | ⟨_, v, t, b', _, _, e, r', _⟩
  · exact .inl ⟨_, e⟩
  · exact .inr ⟨v, b', t, e, r'⟩

theorem safe_bytes (l : Nat) (hl : l < 2^62) : Safe (fun b => b.readBytes l) := by
  intro b r h
  have := h.seek_lt
  rcases readBytes_cases h l (by omega) with ⟨_, e⟩ | ⟨v, t, b', _, _, e, r', _⟩
  · exact .inl ⟨_, e⟩
  · exact .inr ⟨v, b', t, e, r'⟩

theorem safe_hash : Safe (fun b => b.readBytes 32) := safe_bytes 32 (by norm_num)

/-- One outcome of a safe reader. -/
def SafeRes {α : Type} (x : Res (α × Buffer)) : Prop := (∃ e, x = .err e) ∨ ∃ y b' t, x = .ok (y, b') ∧ Rd b' t

theorem safe_bind {α β : Type} {x : Res (α × Buffer)} {f : α × Buffer → Res (β × Buffer)} (h : SafeRes x)
    (hf : ∀ y b t, Rd b t → SafeRes (f (y, b))) : SafeRes (x >>= f) := by
  rcases h with ⟨e, rfl⟩ | ⟨y, b1, t, rfl, r1⟩
  · exact .inl ⟨e, rfl⟩
  · exact hf y b1 t r1

theorem safe_pure {α : Type} (x : α) {b : Buffer} {r : Bytes} (h : Rd b r) : SafeRes (pure (x, b)) :=
  .inr ⟨x, b, r, rfl, h⟩

theorem safe_inv : Safe readInv := by
  intro b r h
  refine safe_bind (safe_u32 b r h) fun _ b r h => ?_
  refine safe_bind (safe_hash b r h) fun _ b r h => ?_
  exact safe_pure _ h

theorem safe_header : Safe readHeader := by
  intro b r h
  refine safe_bind (safe_u32 b r h) fun _ b r h => ?_
  refine safe_bind (safe_hash b r h) fun _ b r h => ?_
  refine safe_bind (safe_hash b r h) fun _ b r h => ?_
  refine safe_bind (safe_u32 b r h) fun _ b r h => ?_
  refine safe_bind (safe_u32 b r h) fun _ b r h => ?_
  refine safe_bind (safe_u32 b r h) fun _ b r h => ?_
  refine safe_bind (safe_u8 b r h) fun _ b r h => ?_
  exact safe_pure _ h

theorem safe_many {α : Type} {rd : Buffer → Res (α × Buffer)} (h : Safe rd) : ∀ n, Safe (readMany rd n)
  | 0 => fun b r hb => .inr ⟨[], b, r, rfl, hb⟩
  | n + 1 => by
    intro b r hb
    rw [readMany]
    refine safe_bind (h b r hb) fun _ b r hb => ?_
    refine safe_bind (safe_many h n b r hb) fun _ b r hb => ?_
    exact safe_pure _ hb

theorem Safe.not_panic {α : Type} {rd : Buffer → Res (α × Buffer)} (h : Safe rd) {b : Buffer} {r : Bytes} (hb : Rd b r) :
    rd b ≠ .panic := by
  intro hp
  rcases h b r hb with ⟨e, h1⟩ | ⟨x, b1, t, h1, _⟩ <;> rw [h1] at hp <;> cases hp

theorem decodeInvs_safe (old : List InvVect) (d : Bytes) (h : d.length < 2^62) : decodeInvs old d ≠ .panic := by
  intro hp
  unfold decodeInvs at hp
  rw [Res.bind_eq_panic] at hp
  rcases hp with hp | ⟨⟨c, b1⟩, e1, hp⟩
  · exact safe_varInt.not_panic (rd_reader d h) hp
  · rcases safe_varInt _ _ (rd_reader d h) with ⟨e, h1⟩ | ⟨x, b2, t, h1, r1⟩
    · rw [h1] at e1; cases e1
    · rw [h1] at e1
      simp only [Res.ok.injEq, Prod.mk.injEq] at e1
      obtain ⟨rfl, rfl⟩ := e1
      dsimp only at hp
      split at hp
      · cases hp
      · rw [Res.bind_eq_panic] at hp
        rcases hp with hp | ⟨_, _, hp⟩
        · exact (safe_many safe_inv _).not_panic r1 hp
        · cases hp

theorem decodeHeaders_safe (old : List BlockHeader) (d : Bytes) (h : d.length < 2^62) :
    decodeHeaders old d ≠ .panic := by
  intro hp
  unfold decodeHeaders at hp
  rw [Res.bind_eq_panic] at hp
  rcases hp with hp | ⟨⟨c, b1⟩, e1, hp⟩
  · exact safe_varInt.not_panic (rd_reader d h) hp
  · rcases safe_varInt _ _ (rd_reader d h) with ⟨e, h1⟩ | ⟨x, b2, t, h1, r1⟩
    · rw [h1] at e1; cases e1
    · rw [h1] at e1
      simp only [Res.ok.injEq, Prod.mk.injEq] at e1
      obtain ⟨rfl, rfl⟩ := e1
      dsimp only at hp
      rw [Res.bind_eq_panic] at hp
      rcases hp with hp | ⟨_, _, hp⟩
      · exact (safe_many safe_header _).not_panic r1 hp
      · cases hp

theorem decodeGetHeaders_safe (old : List Bytes) (s : Bytes) (d : Bytes) (h : d.length < 2^62) :
    decodeGetHeaders old s d ≠ .panic := by
  intro hp
  unfold decodeGetHeaders at hp
  rcases safe_u32 _ _ (rd_reader d h) with ⟨e, h1⟩ | ⟨v, b1, t1, h1, r1⟩
  · rw [h1] at hp; cases hp
  · rw [h1, Res.ok_bind] at hp
    dsimp only at hp
    rcases safe_varInt _ _ r1 with ⟨e, h2⟩ | ⟨c, b2, t2, h2, r2⟩
    · rw [h2] at hp; cases hp
    · rw [h2, Res.ok_bind] at hp
      dsimp only at hp
      rcases safe_many safe_hash _ _ _ r2 with ⟨e, h3⟩ | ⟨l, b3, t3, h3, r3⟩
      · rw [h3] at hp; cases hp
      · rw [h3] at hp; cases hp

theorem decodeNonce_safe (d : Bytes) (h : d.length < 2^62) : decodeNonce d ≠ .panic := by
  intro hp
  unfold decodeNonce at hp
  rw [Res.bind_eq_panic] at hp
  rcases hp with hp | ⟨_, _, hp⟩
  · exact safe_u64.not_panic (rd_reader d h) hp
  · cases hp

/-! ### Lengths that make the string readers panic -/

theorem varInt_unique {e e' t t' : Bytes} {n n' : Nat} (h : IsVarInt e n) (h' : IsVarInt e' n') (hr : e ++ t = e' ++ t') :
    e = e' ∧ n = n' ∧ t = t' := by
  have hl : e.length = e'.length := by
    rcases h with ⟨b, hb, rfl, hn⟩ | ⟨s, hl, rfl, hn⟩ | ⟨s, hl, rfl, hn⟩ | ⟨s, hl, rfl, hn⟩ <;>
    rcases h' with ⟨b', hb', rfl, hn'⟩ | ⟨s', hl', rfl, hn'⟩ | ⟨s', hl', rfl, hn'⟩ | ⟨s', hl', rfl, hn'⟩ <;>
    simp only [List.cons_append, List.cons.injEq, List.nil_append] at hr <;>
    obtain ⟨hx, hy⟩ := hr
    all_goals first
      | (simp only [List.length_cons, List.length_nil]; done)
      | (simp only [List.length_cons, hl, hl']; done)
      | (exfalso; revert hx; decide)
      | (exfalso; rw [hx] at hb; revert hb; decide)
      | (exfalso; rw [← hx] at hb'; revert hb'; decide)
  obtain ⟨rfl, rfl⟩ := List.append_inj hr hl
  refine ⟨rfl, ?_, rfl⟩
  rcases h with ⟨b, hb, rfl, hn⟩ | ⟨s, hl, rfl, hn⟩ | ⟨s, hl, rfl, hn⟩ | ⟨s, hl, rfl, hn⟩ <;>
  rcases h' with ⟨b', hb', he, hn'⟩ | ⟨s', hl', he, hn'⟩ | ⟨s', hl', he, hn'⟩ | ⟨s', hl', he, hn'⟩ <;>
  simp only [List.cons.injEq, and_true] at he
  all_goals first
    | (rw [hn, hn', he]; done)
    | (rw [hn, hn', he.2]; done)
    | (exfalso; have := he.1; revert this; decide)
    | (exfalso; rw [he.1] at hb; revert hb; decide)
    | (exfalso; rw [← he.1] at hb'; revert hb'; decide)

theorem seek_of {b b' : Buffer} {x t : Bytes} (h : Rd b (x ++ t)) (h' : Rd b' t) (hd : b'.data = b.data) :
    b'.seek = b.seek + x.length := by
  have q1 := h.length_le
  have q2 := h'.length_le
  have q3 := h.1.1
  have q4 := h'.1.1
  rw [hd] at q4
  simp at q1
  omega

/-- Complete description of `ReadVarString` for panics and success. -/
theorem varString_cases {b : Buffer} {r : Bytes} (h : Rd b r) :
    (Huge b.seek r ∧ b.readVarString = .panic) ∨
    (¬ Huge b.seek r ∧ ((∃ e, b.readVarString = .err e) ∧ (¬ ∃ e x t, r = e ++ x ++ t ∧ IsVarInt e x.length) ∨
      ∃ e x t b', r = e ++ x ++ t ∧ IsVarInt e x.length ∧ b.readVarString = .ok (x, b') ∧ Rd b' t ∧ b'.data = b.data ∧
        b'.seek = b.seek + e.length + x.length)) := by
  have hs := h.seek_lt
  unfold readVarString
  rcases readVarBytes_cases h with ⟨hsh, e1⟩ | ⟨e, t, n, rfl, hn, hc⟩
  · right
    have key : ¬ ∃ e t n, r = e ++ t ∧ IsVarInt e n := by
      rintro ⟨e, t, n, rfl, hn⟩
      rcases hn with ⟨b, hb, rfl, hn⟩ | ⟨s, hl, rfl, hn⟩ | ⟨s, hl, rfl, hn⟩ | ⟨s, hl, rfl, hn⟩ <;>
      rcases hsh with h0 | ⟨f, t', h0, h1⟩ <;>
      simp only [List.cons_append, List.nil_append, reduceCtorEq, List.cons.injEq] at h0
      · obtain ⟨rfl, rfl⟩ := h0
        unfold varIntTail at h1
        split at h1
        · rename_i hb'; rw [hb'] at hb; revert hb; decide
        · split at h1
          · rename_i hb'; rw [hb'] at hb; revert hb; decide
          · split at h1
            · rename_i hb'; rw [hb'] at hb; revert hb; decide
            · omega
      all_goals
        obtain ⟨rfl, rfl⟩ := h0
        simp only [varIntTail, List.length_append, hl] at h1
        revert h1
        simp
    refine ⟨?_, .inl ⟨⟨_, e1⟩, ?_⟩⟩
    · rintro ⟨e, t, n, hr, hn, _⟩
      exact key ⟨e, t, n, hr, hn⟩
    · rintro ⟨e, x, t, hr, hn⟩
      exact key ⟨e, x ++ t, _, by rw [hr, List.append_assoc], hn⟩
  · have huge : Huge b.seek (e ++ t) ↔ 2^63 ≤ b.seek + e.length + n := by
      constructor
      · rintro ⟨e', t', n', hr, hn', hle⟩
        obtain ⟨rfl, rfl, rfl⟩ := varInt_unique hn hn' hr
        exact hle
      · intro hle
        exact ⟨e, t, n, rfl, hn, hle⟩
    rcases hc with ⟨hle, e1⟩ | ⟨hlt, hsh, e1⟩ | ⟨x, t', b', rfl, hl, e1, r1, d1⟩
    · exact .inl ⟨huge.2 hle, e1⟩
    · right
      refine ⟨fun hh => ?_, .inl ⟨⟨_, e1⟩, ?_⟩⟩
      · have := huge.1 hh
        omega
      · rintro ⟨e', x', t', hr, hn'⟩
        rw [List.append_assoc] at hr
        obtain ⟨rfl, rfl, rfl⟩ := varInt_unique hn hn' hr
        simp at hsh
    · right
      refine ⟨fun hh => ?_, .inr ⟨e, x, t', b', by rw [List.append_assoc], by rw [hl]; exact hn, e1, r1, d1, ?_⟩⟩
      · have := huge.1 hh
        simp only [List.length_append] at hs
        omega
      · rw [← List.append_assoc] at h
        rw [seek_of h r1 d1, List.length_append]
        omega

theorem decodeReject_panic (old : MsgReject) (d : Bytes) (h : d.length < 2^62) :
    decodeReject old d = .panic ↔ Huge 0 d ∨
      ∃ e x c t, d = e ++ x ++ c :: t ∧ IsVarInt e x.length ∧ Huge (e.length + x.length + 1) t := by
  have hb := rd_reader d h
  unfold decodeReject
  rcases varString_cases hb with ⟨hh, e1⟩ | ⟨hh, ⟨⟨er, e1⟩, hno⟩ | ⟨e, x, t, b1, rfl, hv, e1, r1, d1, s1⟩⟩
  · rw [e1]
    exact ⟨fun _ => .inl hh, fun _ => rfl⟩
  · rw [e1]
    refine ⟨fun hp => (by cases hp), ?_⟩
    rintro (hp | ⟨e, x, c, t, rfl, hv, _⟩)
    · exact absurd hp hh
    · exact absurd ⟨e, x, c :: t, rfl, hv⟩ hno
  · have hs1 : b1.seek = e.length + x.length := by rw [s1]; simp [reader]
    rw [e1, Res.ok_bind]
    dsimp only
    have uniq : ∀ e' x' c t', e ++ x ++ t = e' ++ x' ++ c :: t' → IsVarInt e' x'.length →
        e = e' ∧ x = x' ∧ t = c :: t' := by
      intro e' x' c t' hr hv'
      rw [List.append_assoc, List.append_assoc] at hr
      obtain ⟨rfl, hl, hr⟩ := varInt_unique hv hv' hr
      obtain ⟨rfl, rfl⟩ := List.append_inj hr hl
      exact ⟨rfl, rfl, rfl⟩
    rcases readU8_cases r1 with ⟨rfl, e2⟩ | ⟨c, t, b2, rfl, e2, r2, d2⟩
    · rw [e2]
      refine ⟨fun hp => (by cases hp), ?_⟩
      rintro (hp | ⟨e', x', c, t', hr, hv', _⟩)
      · exact absurd hp hh
      · have := (uniq _ _ _ _ hr hv').2.2
        cases this
    · have hs2 : b2.seek = e.length + x.length + 1 := by
        have := seek_of (x := [c]) r1 r2 d2
        simp only [List.length_cons, List.length_nil] at this
        omega
      rw [e2, Res.ok_bind]
      dsimp only
      have iff : (Huge 0 (e ++ x ++ c :: t) ∨
          ∃ e' x' c' t', e ++ x ++ c :: t = e' ++ x' ++ c' :: t' ∧ IsVarInt e' x'.length ∧
            Huge (e'.length + x'.length + 1) t') ↔ Huge b2.seek t := by
        rw [hs2]
        constructor
        · rintro (hp | ⟨e', x', c', t', hr, hv', hg⟩)
          · exact absurd hp hh
          · obtain ⟨rfl, rfl, hc⟩ := uniq _ _ _ _ hr hv'
            simp only [List.cons.injEq] at hc
            rw [hc.2]
            exact hg
        · intro hg
          exact .inr ⟨e, x, c, t, rfl, hv, hg⟩
      rw [iff]
      rcases varString_cases r2 with ⟨hh2, e3⟩ | ⟨hh2, ⟨⟨er, e3⟩, _⟩ | ⟨e', x', t', b3, rfl, hv', e3, r3, d3, s3⟩⟩
      · rw [e3]
        exact ⟨fun _ => hh2, fun _ => rfl⟩
      · rw [e3]
        exact ⟨fun hp => (by cases hp), fun hg => absurd hg hh2⟩
      · rw [e3, Res.ok_bind]
        dsimp only
        refine ⟨fun hp => ?_, fun hg => absurd hg hh2⟩
        rw [Res.bind_eq_panic] at hp
        rcases hp with hp | ⟨_, _, hp⟩
        · unfold readRejectHash at hp
          split at hp
          · exact absurd hp (safe_hash.not_panic r3)
          · cases hp
        · cases hp

/-- The part of a version message before the user agent. -/
def versionHead (b : Buffer) : Res ((UInt32 × UInt64 × UInt64 × UInt64 × Bytes × UInt32 × UInt64 × Bytes × UInt32 × UInt64) ×
    Buffer) := do
  let (version, b) ← b.readU32
  let (services, b) ← b.readU64
  let (timestamp, b) ← b.readU64
  let (servicesYou, b) ← b.readU64
  let (addressYou, b) ← b.readBytes 16
  let (portYou, b) ← b.readU16
  let (servicesMe, b) ← b.readU64
  let (addressMe, b) ← b.readBytes 16
  let (portMe, b) ← b.readU16
  let (nonce, b) ← b.readU64
  return ((version, services, timestamp, servicesYou, addressYou, portYou, servicesMe, addressMe, portMe, nonce), b)

/-- A reader that needs exactly `k` bytes. -/
def Takes {α : Type} (k : Nat) (rd : Buffer → Res (α × Buffer)) : Prop :=
  ∀ (b : Buffer) (r : Bytes), Rd b r → (r.length < k ∧ ∃ e, rd b = .err e) ∨
    ∃ x b' p t, r = p ++ t ∧ p.length = k ∧ rd b = .ok (x, b') ∧ Rd b' t ∧ b'.data = b.data

theorem takes_u16 : Takes 2 readU16 := by
  intro b r h
  rcases readU16_cases h with ⟨hl, e⟩ | ⟨v, t, b', hr, _, e, r', d⟩
  · exact .inl ⟨hl, _, e⟩
  · exact .inr ⟨v, b', _, t, hr, rfl, e, r', d⟩

theorem takes_u32 : Takes 4 readU32 := by
  intro b r h
  rcases readU32_cases h with ⟨hl, e⟩ | ⟨v, t, b', hr, e, r', d⟩
  · exact .inl ⟨hl, _, e⟩
  · exact .inr ⟨v, b', _, t, hr, rfl, e, r', d⟩

theorem takes_u64 : Takes 8 readU64 := by
  intro b r h
  rcases readU64_cases h with ⟨hl, e⟩ | ⟨v, t, b', hr, e, r', d⟩
  · exact .inl ⟨hl, _, e⟩
  · exact .inr ⟨v, b', _, t, hr, rfl, e, r', d⟩

theorem takes_bytes (l : Nat) (hl : l < 2^62) : Takes l (fun b => b.readBytes l) := by
  intro b r h
  have := h.seek_lt
  rcases readBytes_cases h l (by omega) with ⟨hl, e⟩ | ⟨v, t, b', hr, hv, e, r', d⟩
  · exact .inl ⟨hl, _, e⟩
  · exact .inr ⟨v, b', _, t, hr, hv, e, r', d⟩

theorem takes_address : Takes 16 (fun b => b.readBytes 16) := takes_bytes 16 (by norm_num)

/-- One outcome of such a reader on input `r`. -/
def TakesRes {α : Type} (k : Nat) (d r : Bytes) (x : Res (α × Buffer)) : Prop :=
  (r.length < k ∧ ∃ e, x = .err e) ∨
    ∃ y b' p t, r = p ++ t ∧ p.length = k ∧ x = .ok (y, b') ∧ Rd b' t ∧ b'.data = d

theorem takes_bind {α β : Type} {k l : Nat} {d r : Bytes} {x : Res (α × Buffer)} {f : α × Buffer → Res (β × Buffer)}
    (h : TakesRes k d r x) (hf : ∀ y b t, Rd b t → b.data = d → TakesRes l d t (f (y, b))) :
    TakesRes (k + l) d r (x >>= f) := by
  rcases h with ⟨hl, e, rfl⟩ | ⟨y, b1, p, t, rfl, hp, rfl, r1, d1⟩
  · left; exact ⟨by omega, e, rfl⟩
  · rcases hf y b1 t r1 d1 with ⟨hl, e, h2⟩ | ⟨z, b2, q, t2, rfl, hq, h2, r2, d2⟩
    · left; exact ⟨by rw [List.length_append]; omega, e, h2⟩
    · right
      exact ⟨z, b2, p ++ q, t2, by rw [List.append_assoc], by rw [List.length_append, hp, hq], h2, r2, d2⟩

theorem Takes.res {α : Type} {k : Nat} {rd : Buffer → Res (α × Buffer)} (h : Takes k rd) {b : Buffer} {r d : Bytes}
    (hb : Rd b r) (hd : b.data = d) : TakesRes k d r (rd b) := by
  subst hd
  exact h b r hb

theorem takes_head : Takes 80 versionHead := by
  intro b r h
  refine takes_bind (k := 4) (l := 76) (takes_u32.res h rfl) fun _ b r h hd => ?_
  refine takes_bind (k := 8) (l := 68) (takes_u64.res h hd) fun _ b r h hd => ?_
  refine takes_bind (k := 8) (l := 60) (takes_u64.res h hd) fun _ b r h hd => ?_
  refine takes_bind (k := 8) (l := 52) (takes_u64.res h hd) fun _ b r h hd => ?_
  refine takes_bind (k := 16) (l := 36) (takes_address.res h hd) fun _ b r h hd => ?_
  refine takes_bind (k := 2) (l := 34) (takes_u16.res h hd) fun _ b r h hd => ?_
  refine takes_bind (k := 8) (l := 26) (takes_u64.res h hd) fun _ b r h hd => ?_
  refine takes_bind (k := 16) (l := 10) (takes_address.res h hd) fun _ b r h hd => ?_
  refine takes_bind (k := 2) (l := 8) (takes_u16.res h hd) fun _ b r h hd => ?_
  refine takes_bind (k := 8) (l := 0) (takes_u64.res h hd) fun _ b r h hd => ?_
  exact .inr ⟨_, b, [], r, rfl, rfl, rfl, h, hd⟩

/-- The part of a version message from the user agent on. -/
def versionTail (b : Buffer) : Res (Bytes × UInt32 × UInt8) := do
  let (userAgent, b) ← b.readVarString
  let (lastBlock, b) ← b.readU32
  let (relay, _) ← b.readU8
  return (userAgent, lastBlock, relay)

theorem bind_assoc' {α β γ : Type} (x : Res α) (f : α → Res β) (g : β → Res γ) :
    (x >>= f) >>= g = x >>= fun a => f a >>= g := by
  cases x <;> rfl

theorem decodeVersion_split (d : Bytes) : decodeVersion d = versionHead (reader d) >>= fun p => versionTail p.2 >>= fun q =>
    pure ⟨p.1.1, p.1.2.1, p.1.2.2.1, p.1.2.2.2.1, p.1.2.2.2.2.1, p.1.2.2.2.2.2.1, p.1.2.2.2.2.2.2.1,
      p.1.2.2.2.2.2.2.2.1, p.1.2.2.2.2.2.2.2.2.1, p.1.2.2.2.2.2.2.2.2.2, q.1, q.2.1, q.2.2⟩ := by
  unfold versionHead versionTail decodeVersion
  simp only [bind_assoc', Res.pure_eq, Res.ok_bind]

theorem versionTail_panic {b : Buffer} {r : Bytes} (h : Rd b r) : versionTail b = .panic ↔ Huge b.seek r := by
  unfold versionTail
  rcases varString_cases h with ⟨hh, e1⟩ | ⟨hh, ⟨⟨er, e1⟩, _⟩ | ⟨e, x, t, b1, rfl, hv, e1, r1, d1, s1⟩⟩
  · rw [e1]
    exact ⟨fun _ => hh, fun _ => rfl⟩
  · rw [e1]
    exact ⟨fun hp => (by cases hp), fun hg => absurd hg hh⟩
  · refine ⟨fun hp => ?_, fun hg => absurd hg hh⟩
    rw [e1, Res.ok_bind] at hp
    dsimp only at hp
    rcases safe_u32 _ _ r1 with ⟨er, e2⟩ | ⟨y, b2, t2, e2, r2⟩
    · rw [e2] at hp; cases hp
    · rw [e2, Res.ok_bind] at hp
      dsimp only at hp
      rcases safe_u8 _ _ r2 with ⟨er, e3⟩ | ⟨z, b3, t3, e3, r3⟩
      · rw [e3] at hp; cases hp
      · rw [e3] at hp; cases hp

theorem decodeVersion_panic (d : Bytes) (h : d.length < 2^62) :
    decodeVersion d = .panic ↔ ∃ p t, d = p ++ t ∧ p.length = 80 ∧ Huge 80 t := by
  have hb := rd_reader d h
  rw [decodeVersion_split]
  rcases takes_head _ _ hb with ⟨hl, e, h1⟩ | ⟨x, b1, p, t, rfl, hp, h1, r1, d1⟩
  · rw [h1]
    refine ⟨fun hp => (by cases hp), ?_⟩
    rintro ⟨p, t, rfl, hp, _⟩
    rw [List.length_append] at hl
    omega
  · have hs : b1.seek = 80 := by rw [seek_of hb r1 d1, hp]; rfl
    rw [h1, Res.ok_bind, Res.bind_eq_panic]
    dsimp only
    have : versionTail b1 = .panic ↔ Huge 80 t := by rw [versionTail_panic r1, hs]
    rw [this]
    constructor
    · rintro (hg | ⟨_, _, hg⟩)
      · exact ⟨p, t, rfl, hp, hg⟩
      · cases hg
    · rintro ⟨p', t', hr, hp', hg⟩
      left
      have := (List.append_inj hr (by rw [hp, hp'])).2
      rw [this]
      exact hg

end Toku.Protocol
