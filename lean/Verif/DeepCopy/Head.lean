import Verif.DeepCopy.Work
/-
The first visit of an entry.
-/
namespace Verif.DeepCopy
open Verif Verif.Entry Verif.Entry.Spec Verif.Value Verif.Value.Spec Verif.Handlers Verif.ValueString.Spec Verif.Deep.Spec Verif.DeepCopy.Spec
open Verif.Bitfield.Spec (Field)
open Verif.Deep (Node Map Table Keys Ids typed_unique isA isA_final)

section
variable {env : Env} {order : Table → Table} {mode : Deep.Mode} {db : Db} {st₀ st₁ : State} {M : Map} {dst : Value} {B : Blocks}

theorem Setup.base (h : Setup env order mode db st₀ M dst st₁ B) {m : Mem} (hi : Inv env mode db st₀ M dst B m) {x : Node} {w : Value}
    (hc : Copy (place B) M.top dst x w) (hb : ∃ s e, Typed db x.val (.base s e)) :
    ∃ m', copyBaseType env.cfg db m (some x.val) (some w) = .ok (true, m') ∧ Made env mode db st₀ M dst B m m' x w := by
  have hx := copy_within hc
  obtain ⟨s, e, hb⟩ := hb
  obtain ⟨o, l, u, hw⟩ := h.copyable.numbers x hx (.inl ⟨s, e, hb⟩)
  have no : ∀ {i : Info} {P : Prop}, Typed db x.val i → (∀ s e, i ≠ .base s e) → P := fun h1 h2 => absurd (typed_unique h1 hb) (h2 s e)
  cases hw' : hw with
  | @number t n ho hs =>
    have hh := h.holds hi hx hw (by omega) ho.content
    have ho' : Value.Object db m x.val t n := ⟨ho.type, ho.plain, ho.nonNull, hh, ho.valid⟩
    obtain ⟨f, qs, hf, hd⟩ := ho.type
    obtain ⟨⟨qs', hf', hq⟩, hbf⟩ := h.entry hc hf
    obtain ⟨m', h1, h2⟩ := copy_number (cfg := env.cfg) h.sane.named ho' hf' hd hq (fun hc' => ho.plain (hbf.mp hc')) (h.nonNull hc)
      (h.room_for hi hc hw (by omega))
    rw [← hs] at h2
    exact ⟨m', h1, h.step hi hc hw (by simpa [Want.value, hs] using h2)⟩
  | @bits t be base bit _ qs _ c hbo h30 hwd h32 hiso hbool heq hf =>
    obtain ⟨r, hr, c1, c2, c3⟩ := h.cell hc hw
    obtain ⟨mi, h1, h2, h3⟩ := hbo.field
    have hbf := bit_plain hbo
    have hbm : ∀ i < l, m ((8 * base + bit + i) / 8) = st₀.m ((8 * base + bit + i) / 8) := fun i hi' =>
      (h.source hi hx hw (hbo.mapped i hi') (by omega) (by omega)).1
    have hbo' : BitObject db m x.val t be base bit l qs :=
      ⟨hbo.type, hbo.integral, hbo.field, hbo.nonNull, fun i hi' => by rw [hbm i hi']; exact hbo.mapped i hi', hbo.nonempty⟩
    have hf' : Field m (8 * base + bit) l c := field_congr hf fun i a1 a2 => bit_congr (by
      have := hbm (i - (8 * base + bit)) (by omega)
      rw [show 8 * base + bit + (i - (8 * base + bit)) = i by omega] at this
      exact this)
    cases hc with
    | top => exact absurd hbf h.copyable.whole
    | @part y wy _ hy hd hk =>
      obtain ⟨_, h5, _⟩ := h.copyable.bits _ _ mi (copy_within hy) hk h1 hbf
      have h0 := h.nonNull hy
      simp only at c3
      obtain ⟨f, bs, hff, hdd, hinf⟩ := hbo.type
      have hbw : BitObject db m ⟨x.val.entry, wy.addr + (x.val.addr - y.val.addr)⟩ t be (wy.addr + (base - y.val.addr)) bit l qs := by
        refine ⟨⟨f, bs, hff, hdd, hinf⟩, hbo.integral, ⟨mi, h1, h2, by simp only; omega⟩, by omega, ?_, hbo.nonempty⟩
        intro i hi'
        exact hi.mapped r hr _ ⟨by omega, by omega⟩
      obtain ⟨m', g1, g2⟩ := copy_bits (cfg := env.cfg) h.sane.named hbo' h30 hwd h32 hiso hbool hf' hbw (h.copyable.writable _ _ (copy_within hy) hk _ _ hff)
      refine ⟨m', g1, h.step hi (.part hy hd hk) hw ?_⟩
      simp only [Want.value]
      rw [show 8 * (wy.addr + (x.val.addr - y.val.addr)) + o = 8 * (wy.addr + (base - y.val.addr)) + bit by omega]
      exact g2
    | target hy hd hk =>
      obtain ⟨g2, _⟩ := h.copyable.bits _ _ mi (copy_within hy) hk h1 hbf
      rw [hd] at g2
      cases g2
  | enumeration ht => exact no ht (by simp)
  | null ht => exact no ht (by simp)
  | followed ht => exact no ht (by simp)
  | dropped ht => exact no ht (by simp)
  | kept ht => exact no ht (by simp)
  | bytes ht => exact no ht (by simp)
  | zero ht => exact no ht (by simp)

theorem Setup.enumeration (h : Setup env order mode db st₀ M dst st₁ B) {m : Mem} (hi : Inv env mode db st₀ M dst B m) {x : Node} {w : Value}
    (hc : Copy (place B) M.top dst x w) {s e es} (hb : Typed db x.val (.enumeration s e es)) :
    ∃ m', copyEnumeration db m (some x.val) (some w) = .ok (true, m') ∧ Made env mode db st₀ M dst B m m' x w := by
  have hx := copy_within hc
  obtain ⟨o, l, u, hw⟩ := h.copyable.numbers x hx (.inr ⟨s, e, es, hb⟩)
  have no : ∀ {i : Info} {P : Prop}, Typed db x.val i → (∀ s e es, i ≠ .enumeration s e es) → P := fun h1 h2 => absurd (typed_unique h1 hb) (h2 s e es)
  cases hw' : hw with
  | enumeration ht h0 hs hsz hh =>
    obtain ⟨m', h1, h2⟩ := copy_enum ht h0 hsz (h.holds hi hx hw (by omega) hh) (h.typed hc ht) (h.nonNull hc) (h.room_for hi hc hw (by omega))
    rw [← hs] at h2
    exact ⟨m', h1, h.step hi hc hw (by simpa [Want.value] using h2)⟩
  | number ho =>
    obtain ⟨f, qs, hf, hd⟩ := ho.type
    obtain ⟨_, _, ht⟩ := describes_typed hf hd
    exact no ht (by simp)
  | bits ho =>
    obtain ⟨f, qs, hf, hd, _⟩ := ho.type
    obtain ⟨_, _, ht⟩ := describes_typed hf hd
    exact no ht (by simp)
  | null ht => exact no ht (by simp)
  | followed ht => exact no ht (by simp)
  | dropped ht => exact no ht (by simp)
  | kept ht => exact no ht (by simp)
  | bytes ht => exact no ht (by simp)
  | zero ht => exact no ht (by simp)

/-- A pointer that is to hold `a`. -/
theorem Setup.set (h : Setup env order mode db st₀ M dst st₁ B) {m : Mem} (hi : Inv env mode db st₀ M dst B m) {x : Node} {w : Value}
    (hc : Copy (place B) M.top dst x w) {t} (ht : Typed db x.val (.pointer t)) {u : Want} (hw : Wants env.cfg mode db st₀.m x 0 64 u)
    (hlt : u.value (place B) < 2 ^ 64) :
    ∃ m', setPointer db m (some w) (u.value (place B)) = .ok (0, m') ∧ Made env mode db st₀ M dst B m m' x w := by
  obtain ⟨m', h1, h2⟩ := set_pointer (h.typed hc ht) (h.nonNull hc) (h.room_for hi hc hw (n := 8) (by omega)) hlt
  exact ⟨m', h1, h.step hi hc hw (by simpa using h2)⟩

theorem Setup.copyFrom (h : Setup env order mode db st₀ M dst st₁ B) {m : Mem} (hi : Inv env mode db st₀ M dst B m) {x : Node} {w : Value}
    (hc : Copy (place B) M.top dst x w) {t} (ht : Typed db x.val (.pointer t)) {u : Want} (hw : Wants env.cfg mode db st₀.m x 0 64 u) {p : Value}
    (hp : Pointer db m p (u.value (place B))) :
    ∃ m', copyPointer db m (some p) (some w) = .ok (true, m') ∧ Made env mode db st₀ M dst B m m' x w := by
  obtain ⟨m', h1, h2⟩ := copy_pointer hp (h.typed hc ht) (h.nonNull hc) (h.room_for hi hc hw (n := 8) (by omega))
  exact ⟨m', h1, h.step hi hc hw (by simpa using h2)⟩

/-- The objects around: they and their copies; the copies of pointers hold what they are to. -/
def Around (env : Env) (mode : Deep.Mode) (db : Db) (st₀ : State) (M : Map) (dst : Value) (B : Blocks) (m : Mem) (outs : List (Node × Value)) : Prop :=
  ∀ p ∈ outs, Copy (place B) M.top dst p.1 p.2 ∧ Done env mode db st₀ B m p.1 p.2 ∧ p.1.kids ≠ []

theorem holds_of_field8 {m : Mem} {a v : Nat} (h : Field m (8 * a) 64 v) : Holds m a 8 v := holds_of_field h

/-- A pointer that was not followed. -/
theorem Setup.unfollowed (h : Setup env order mode db st₀ M dst st₁ B) {m : Mem} (hi : Inv env mode db st₀ M dst B m) {x : Node} {w : Value}
    (hc : Copy (place B) M.top dst x w) {outs : List (Node × Value)} (ho : Around env mode db st₀ M dst B m outs) {n l : Nat}
    (hk : x.kids = []) (hl : x.loop = l) {t} (hob : ValueString.Spec.Object env.vs db x.val (.pointer t))
    (hs : Consists env.deep mode db st₀.m (outs.map (·.1.val)) x.val (.leaf n l)) (live : List (Nat × Nat)) :
    ∃ m', copyUnfollowed mode db (outs.map (·.2)) x.val l w ⟨m, live⟩ = .ok (.parts, ⟨m', live⟩) ∧ Made env mode db st₀ M dst B m m' x w := by
  have hx := copy_within hc
  have ht := hob.2.2
  have no : ∀ {i : Info} {P : Prop}, ValueString.Spec.Object env.vs db x.val i → i ≠ .pointer t → P := fun h1 h2 => absurd (typed_unique h1.2.2 ht) h2
  have null : l = 0 → Holds st₀.m x.val.addr 8 0 →
      ∃ m', copyUnfollowed mode db (outs.map (·.2)) x.val l w ⟨m, live⟩ = .ok (.parts, ⟨m', live⟩) ∧ Made env mode db st₀ M dst B m m' x w := by
    intro hl0 hh
    have hw : Wants env.cfg mode db st₀.m x 0 64 (.num 0) := .null ht hh
    subst hl0
    cases hu : mode.uptr with
    | ignore =>
      obtain ⟨m', h1, h2⟩ := h.set hi hc ht hw (by simp [Want.value])
      simp only [Want.value] at h1
      exact ⟨m', by simp [copyUnfollowed, hu, h1, copied], h2⟩
    | asValues =>
      obtain ⟨m', h1, h2⟩ := h.copyFrom hi hc ht hw (p := x.val) ⟨hob.2.1, (by obtain ⟨f, qs, h1, h2⟩ := ht; exact ⟨f, qs, t, h1, h2⟩), h.holds hi hx hw (by omega) hh⟩
      exact ⟨m', by simp [copyUnfollowed, hu, h1, copied], h2⟩
    | fail =>
      refine ⟨m, by simp [copyUnfollowed, hu], hi, fun _ _ _ hd => hd, ?_⟩
      intro o l u hw'
      obtain ⟨rfl, rfl, rfl⟩ := wants_unique hw hw'
      exact hi.null (.inl hu) _ _ _ hc ht hh
    | oneByte =>
      refine ⟨m, by simp [copyUnfollowed, hu], hi, fun _ _ _ hd => hd, ?_⟩
      intro o l u hw'
      obtain ⟨rfl, rfl, rfl⟩ := wants_unique hw hw'
      exact hi.null (.inr hu) _ _ _ hc ht hh
  cases hs with
  | base h1 => exact no h1 (by simp)
  | enumeration h1 => exact no h1 (by simp)
  | null _ _ hh => exact null rfl hh
  | @loop t' n a _ _ hsz hh ha hlo =>
    obtain ⟨i, q, rfl, hq, ⟨hq0, ⟨f, qs, t'', hf, hinf⟩, hqh⟩, _⟩ := hlo
    rw [List.getElem?_map] at hq
    cases hp : outs[i]? with
    | none => rw [hp] at hq; cases hq
    | some p =>
      rw [hp] at hq
      simp only [Option.map_some, Option.some.injEq] at hq
      obtain ⟨c1, c2, c3⟩ := ho p (List.mem_of_getElem? hp)
      have htp : Typed db p.1.val (.pointer t'') := by rw [hq]; exact ⟨f, qs, hf, hinf⟩
      have hwp : Wants env.cfg mode db st₀.m p.1 0 64 (.copyOf a) := .followed htp (by rw [hq]; exact hqh) ha (.inl c3)
      have hfp := c2 _ _ _ hwp
      have hw : Wants env.cfg mode db st₀.m x 0 64 (.copyOf a) := .followed ht hh ha (.inr (by rw [hl]; omega))
      obtain ⟨g, qs', hg, hgi⟩ := h.typed c1 htp
      obtain ⟨m', h1, h2⟩ := h.copyFrom hi hc ht hw (p := p.2) ⟨h.nonNull c1, ⟨g, qs', t'', hg, hgi⟩, holds_of_field8 (by simpa using hfp)⟩
      have hiA : isA db isPointer p.2 = .ok true := by rw [isA_final hg, hgi]; rfl
      have hout : (outs.map (·.2))[i]? = some p.2 := by rw [List.getElem?_map, hp]; rfl
      exact ⟨m', by simp [copyUnfollowed, hout, hiA, Outcome.assert, h1, copied], h2⟩
  | @unknown t' n a _ hsz hh ha _ _ _ hu =>
    rcases hu with hu | hu
    · have hw : Wants env.cfg mode db st₀.m x 0 64 (.num 0) := .dropped ht hh ha hk hl hu
      obtain ⟨m', h1, h2⟩ := h.set hi hc ht hw (by simp [Want.value])
      simp only [Want.value] at h1
      exact ⟨m', by simp [copyUnfollowed, hu, h1, copied], h2⟩
    · have hw : Wants env.cfg mode db st₀.m x 0 64 (.num a) := .kept ht hh ha hk hl hu
      obtain ⟨m', h1, h2⟩ := h.copyFrom hi hc ht hw (p := x.val) ⟨hob.2.1, (by obtain ⟨f, qs, h1, h2⟩ := ht; exact ⟨f, qs, t, h1, h2⟩), h.holds hi hx hw (by omega) hh⟩
      exact ⟨m', by simp [copyUnfollowed, hu, h1, copied], h2⟩

/-- Where a followed pointer is to point. -/
theorem Setup.point (h : Setup env order mode db st₀ M dst st₁ B) {x k : Node} {p : Nat} (hx : Within M.top x) (hd : x.deref = true) (hk : k ∈ x.kids)
    (hh : Holds st₀.m x.val.addr 8 p) : ∃ b ∈ B, (b.1 ≤ p ∧ p < b.1 + max b.2.2 1) ∧ b.1 ≤ k.val.addr ∧ k.val.addr < b.1 + max b.2.2 1 := by
  obtain ⟨h0, h1, h2⟩ := h.copyable.points x k p hx hd hk hh
  obtain ⟨b, hb, h3, h4, h5⟩ := h.target_block (targets_within hx (targets_deref hd hk))
  refine ⟨b, hb, ⟨by omega, by omega⟩, h3, h5⟩

theorem Setup.place_lt (h : Setup env order mode db st₀ M dst st₁ B) {b : Nat × Nat × Nat} {p : Nat} (hb : b ∈ B) (h1 : b.1 ≤ p) (h2 : p < b.1 + max b.2.2 1) :
    place B p < 2 ^ 64 ∧ place B p ≠ 0 := by
  rw [h.place_in hb h1 h2]
  have := h.new.bounded b hb
  have := h.new.nonNull b hb
  omega

/-- A pointer that was followed. -/
theorem Setup.followed (h : Setup env order mode db st₀ M dst st₁ B) {m : Mem} (hi : Inv env mode db st₀ M dst B m) {x k : Node} {w : Value}
    (hc : Copy (place B) M.top dst x w) (hk : x.kids = [k]) (hd : x.deref = true) {t p} (hob : ValueString.Spec.Object env.vs db x.val (.pointer t))
    (hh : Holds st₀.m x.val.addr 8 p) (hp : p ≠ 0) (live : List (Nat × Nat)) :
    ∃ m', copyTarget env mode db M B.table x.val k w ⟨m, live⟩ = .ok (.target (place B k.val.addr), ⟨m', live⟩) ∧ Made env mode db st₀ M dst B m m' x w := by
  have hx := copy_within hc
  have hkm : k ∈ x.kids := by simp [hk]
  have hw : Wants env.cfg mode db st₀.m x 0 64 (.copyOf p) := .followed hob.2.2 hh hp (.inl (by simp [hk]))
  obtain ⟨b, hb, ⟨b1, b2⟩, b3, b4⟩ := h.point hx hd hkm hh
  obtain ⟨h0, h1, h2⟩ := h.copyable.points x k p hx hd hkm hh
  obtain ⟨m', g1, g2⟩ := h.set hi hc hob.2.2 hw (h.place_lt hb b1 b2).1
  have hpl : place B k.val.addr + p - k.val.addr = place B p := by
    rw [h.place_in hb b1 b2, h.place_in hb b3 b4]
    omega
  have hpt := pointer_get (m := m) (a := p) (v := x.val) ⟨hob.2.1, (by obtain ⟨f, qs, h1, h2⟩ := hob.2.2; exact ⟨f, qs, t, h1, h2⟩), h.holds hi hx hw (by omega) hh⟩
  refine ⟨m', ?_, g2⟩
  simp only [Want.value] at g1
  simp [copyTarget, h.place_target (targets_within hx (targets_deref hd hkm)) h0, hpt, hp, Outcome.assert, hpl, g1]

theorem zeros_bytes : ∀ n : Nat, List.replicate n (0 : UInt8) = Mem.bytesOf n 0
  | 0 => rfl
  | n + 1 => by
    rw [List.replicate_succ, zeros_bytes n]
    rfl

theorem Setup.union (h : Setup env order mode db st₀ M dst st₁ B) {m : Mem} (hi : Inv env mode db st₀ M dst B m) {x : Node} {w : Value}
    (hc : Copy (place B) M.top dst x w) {s ms} (ht : Typed db x.val (.struct .union s ms)) (hk : x.kids = []) (hsz : 0 < x.size) (live : List (Nat × Nat)) :
    ∃ m', (match mode.union with
      | .asMem => do return (Head.parts, { (⟨m, live⟩ : State) with m := ← memcpy m w.addr x.val.addr x.size })
      | .ignore => do return (.parts, { (⟨m, live⟩ : State) with m := ← m.store w.addr (List.replicate x.size 0) })
      | .fail => return (.parts, ⟨m, live⟩)) = Outcome.ok (.parts, ⟨m', live⟩) ∧ Made env mode db st₀ M dst B m m' x w := by
  have hx := copy_within hc
  cases hu : mode.union with
  | asMem =>
    obtain ⟨n, hn⟩ := Mem.load_mapped (mapped_of (h.copyable.unions hu x hx hk ⟨s, ms, ht⟩))
    have hh : Holds st₀.m x.val.addr x.size (Mem.le n) := by
      rw [holds_loadN]
      simp [Mem.loadN, hn]
    have hw : Wants env.cfg mode db st₀.m x 0 (8 * x.size) (.num (Mem.le n)) := .bytes ht hk hsz hu hh
    have hh' := h.holds hi hx hw (by omega) hh
    have hl : m.load x.val.addr x.size = .ok (Mem.bytesOf x.size (Mem.le n)) := by
      have := holds_loadN.mp hh'
      simp only [Mem.loadN] at this
      rw [ValueString.bind_ok_iff] at this
      obtain ⟨bs, h1, h2⟩ := this
      have h3 : Mem.le bs = Mem.le n := by simpa using h2
      have h4 : bs.length = x.size := Mem.load_length h1
      rw [h1, ← h3, ← h4, Mem.bytesOf_le]
    obtain ⟨m', g1, g2⟩ := store_spec' (m := m) (a := w.addr) (bs := Mem.bytesOf x.size (Mem.le n)) (by
      rw [Mem.bytesOf_length]; exact h.room_for hi hc hw (by omega)) rfl hh.1
    have hov : ¬ (w.addr < x.val.addr + x.size ∧ x.val.addr < w.addr + x.size) := by
      rintro ⟨o1, o2⟩
      obtain ⟨r, hr, c1, c2, c3⟩ := h.cell hc hw
      have hmax : ∃ a, a = max w.addr x.val.addr := ⟨_, rfl⟩
      obtain ⟨a, ha⟩ := hmax
      have hma : st₀.m a ≠ none := by
        have := mapped_ne hh (a - x.val.addr) (by omega)
        rwa [show x.val.addr + (a - x.val.addr) = a by omega] at this
      exact (h.source hi hx hw hma (by omega) (by omega)).2 r hr ⟨by omega, by omega⟩
    exact ⟨m', by simp [memcpy, hov, hl, g1], h.step hi hc hw (by simpa [Want.value] using g2)⟩
  | ignore =>
    have hw : Wants env.cfg mode db st₀.m x 0 (8 * x.size) (.num 0) := .zero ht hk hsz hu
    obtain ⟨m', g1, g2⟩ := store_spec' (m := m) (a := w.addr) (bs := List.replicate x.size 0) (n := x.size) (v := 0) (by
      rw [List.length_replicate]; exact h.room_for hi hc hw (by omega)) (zeros_bytes _) (Nat.pow_pos (by decide))
    exact ⟨m', by simp [g1], h.step hi hc hw (by simpa [Want.value] using g2)⟩
  | fail =>
    refine ⟨m, rfl, idle hi ?_⟩
    intro o l u hw
    have no : ∀ {i : Info} {P : Prop}, Typed db x.val i → i ≠ (.struct .union s ms) → P := fun h1 h2 => absurd (typed_unique h1 ht) h2
    cases hw with
    | number ho =>
      obtain ⟨f, qs, hf, hd⟩ := ho.type
      obtain ⟨_, _, ht⟩ := describes_typed hf hd
      exact no ht (by simp)
    | bits ho =>
      obtain ⟨f, qs, hf, hd, _⟩ := ho.type
      obtain ⟨_, _, ht⟩ := describes_typed hf hd
      exact no ht (by simp)
    | enumeration ht => exact no ht (by simp)
    | null ht => exact no ht (by simp)
    | followed ht => exact no ht (by simp)
    | dropped ht => exact no ht (by simp)
    | kept ht => exact no ht (by simp)
    | bytes _ _ _ hm => rw [hu] at hm; cases hm
    | zero _ _ _ hm => rw [hu] at hm; cases hm

/-- Nothing is wanted of objects with parts. -/
theorem no_wants {cfg : Plat} {m : Mem} {x : Node} {i : Info} (ht : Typed db x.val i) (h1 : ∀ s e, i ≠ .base s e) (h2 : ∀ s e es, i ≠ .enumeration s e es)
    (h3 : ∀ t, i ≠ .pointer t) (h4 : ∀ s ms, i = .struct .union s ms → x.kids ≠ [] ∨ x.size = 0) : ∀ o l u, ¬ Wants cfg mode db m x o l u := by
  intro o l u hw
  cases hw with
  | number ho =>
    obtain ⟨f, qs, hf, hd⟩ := ho.type
    obtain ⟨_, _, ht'⟩ := describes_typed hf hd
    exact h1 _ _ (typed_unique ht ht')
  | bits ho =>
    obtain ⟨f, qs, hf, hd, _⟩ := ho.type
    obtain ⟨_, _, ht'⟩ := describes_typed hf hd
    exact h1 _ _ (typed_unique ht ht')
  | enumeration ht' => exact h2 _ _ _ (typed_unique ht ht')
  | null ht' => exact h3 _ (typed_unique ht ht')
  | followed ht' => exact h3 _ (typed_unique ht ht')
  | dropped ht' => exact h3 _ (typed_unique ht ht')
  | kept ht' => exact h3 _ (typed_unique ht ht')
  | bytes ht' hk hs =>
    rcases h4 _ _ (typed_unique ht ht') with h | h
    · exact h hk
    · omega
  | zero ht' hk hs =>
    rcases h4 _ _ (typed_unique ht ht') with h | h
    · exact h hk
    · omega

theorem load_false {e : ValueString.Env} {v : Value} (hf : ∃ f qs, Final db v.entry f qs)
    (hc : ¬ Packed e db v ∧ (∀ t ps, ¬ Typed db v (.subprogram t ps)) ∧ ∀ t ps, ¬ Typed db v (.subroutine t ps)) : hasLoad e.toEnv db v = .ok false := by
  obtain ⟨f, qs, hf⟩ := hf
  obtain ⟨b, hb, hbi⟩ := ValueString.hasLoad_iff (env := e) hf
  cases b with
  | false => exact hb
  | true =>
    rcases hbi.mp rfl with h | ⟨x, qs, t, ps, hx, h⟩
    · exact absurd h hc.1
    · rcases h with h | h
      · exact absurd ⟨x, qs, hx, h⟩ (hc.2.1 t ps)
      · exact absurd ⟨x, qs, hx, h⟩ (hc.2.2 t ps)

/-- The first visit of an entry. -/
theorem Setup.head (h : Setup env order mode db st₀ M dst st₁ B) {m : Mem} (hi : Inv env mode db st₀ M dst B m) {x : Node} {w : Value}
    (hc : Copy (place B) M.top dst x w) {outs : List (Node × Value)} (ho : Around env mode db st₀ M dst B m outs)
    (ht : Tree env.deep mode db st₀.m (outs.map (·.1.val)) x) (live : List (Nat × Nat)) :
    ∃ hd m', head env mode db M B.table (outs.map (·.2)) x w ⟨m, live⟩ = .ok (hd, ⟨m', live⟩) ∧ Made env mode db st₀ M dst B m m' x w ∧
      ((x.deref = false ∧ hd = .parts) ∨ (x.deref = true ∧ ∃ k, x.kids = [k] ∧ hd = .target (place B k.val.addr))) := by
  have hx := copy_within hc
  have hcl := h.copyable.calls x hx
  -- objects with parts
  have parts : ∀ {i : Info}, ValueString.Spec.Object env.vs db x.val i → (∀ s e, i ≠ .base s e) → (∀ s e es, i ≠ .enumeration s e es) →
      (∀ t, i ≠ .pointer t) → (∀ s ms, i = .struct .union s ms → x.kids ≠ [] ∨ x.size = 0) →
      ∃ m', DeepCopy.head env mode db M B.table (outs.map (·.2)) x w ⟨m, live⟩ = .ok (.parts, ⟨m', live⟩) ∧ Made env mode db st₀ M dst B m m' x w := by
    intro i hob h1 h2 h3 h4
    refine ⟨m, ?_, idle hi (no_wants hob.2.2 h1 h2 h3 h4)⟩
    obtain ⟨_, h0, f, qs, hf, hinf⟩ := hob
    have e1 : isA db isPointer x.val = .ok false := by
      rw [isA_final hf, hinf]
      cases i <;> first | rfl | exact absurd rfl (h3 _)
    have e2 : isA db isEnum x.val = .ok false := by
      rw [isA_final hf, hinf]
      cases i <;> first | rfl | exact absurd rfl (h2 _ _ _)
    have e3 : isA db isBase x.val = .ok false := by
      rw [isA_final hf, hinf]
      cases i <;> first | rfl | exact absurd rfl (h1 _ _)
    have e4 : Deep.finalKind db x.val = .ok (kind db (some f)) := (Deep.kinds h0 h0 hf hf).1
    have e5 : hasLoad env.toEnv db x.val = .ok false := load_false ⟨_, _, hf⟩ hcl
    have e6 : ¬ (x.kids.length = 0 ∧ kind db (some f) = 17 ∧ x.size > 0) := by
      rintro ⟨k1, k2, k3⟩
      simp only [kind, hinf] at k2
      have : ∃ s ms, i = .struct .union s ms := by
        cases i with
        | struct k s ms => cases k <;> simp [kindOf] at k2; exact ⟨s, ms, rfl⟩
        | qual q t => cases q <;> simp [kindOf] at k2
        | reference v n t => cases v <;> simp [kindOf] at k2
        | _ => simp [kindOf] at k2
      obtain ⟨s, ms, hi'⟩ := this
      rcases h4 s ms hi' with h | h
      · exact h (List.length_eq_zero_iff.mp k1)
      · omega
    simp only [DeepCopy.head, e1, e2, e3, e4, e5, Outcome.bind_ok, Bool.false_eq_true, if_false]
    rw [if_neg e6]
    rfl
  cases ht with
  | @leaf _ id v n l hs =>
    have hob : ∃ i, ValueString.Spec.Object env.vs db v i := by
      cases hs with
      | base h => exact ⟨_, h⟩
      | enumeration h => exact ⟨_, h⟩
      | null h => exact ⟨_, h⟩
      | loop h => exact ⟨_, h⟩
      | unknown h => exact ⟨_, h⟩
    have ptr : ∀ {t}, ValueString.Spec.Object env.vs db v (.pointer t) → ∃ m', DeepCopy.head env mode db M B.table (outs.map (·.2)) (.mk id v n l false []) w ⟨m, live⟩ =
        .ok (.parts, ⟨m', live⟩) ∧ Made env mode db st₀ M dst B m m' (.mk id v n l false []) w := by
      intro t hob
      obtain ⟨m', h1, h2⟩ := h.unfollowed hi hc ho (x := .mk id v n l false []) rfl rfl hob hs live
      obtain ⟨_, h0, f, qs, hf, hinf⟩ := hob
      have e1 : isA db isPointer v = .ok true := by rw [isA_final hf, hinf]; rfl
      exact ⟨m', by simp only [DeepCopy.head, Node.val, Node.kids, Node.loop, e1, Outcome.bind_ok, if_true] at h1 ⊢; exact h1, h2⟩
    suffices hsuf : ∃ m', DeepCopy.head env mode db M B.table (outs.map (·.2)) (.mk id v n l false []) w ⟨m, live⟩ = .ok (.parts, ⟨m', live⟩) ∧
        Made env mode db st₀ M dst B m m' (.mk id v n l false []) w by
      obtain ⟨m', h1, h2⟩ := hsuf
      exact ⟨Head.parts, m', h1, h2, .inl ⟨rfl, rfl⟩⟩
    cases hs with
    | base hob =>
      obtain ⟨m', h1, h2⟩ := h.base hi hc (x := .mk id v n 0 false []) ⟨_, _, hob.2.2⟩
      obtain ⟨_, h0, f, qs, hf, hinf⟩ := hob
      have e1 : isA db isPointer v = .ok false := by rw [isA_final hf, hinf]; rfl
      have e2 : isA db isEnum v = .ok false := by rw [isA_final hf, hinf]; rfl
      have e3 : isA db isBase v = .ok true := by rw [isA_final hf, hinf]; rfl
      simp only [Node.val] at h1
      exact ⟨m', by simp [DeepCopy.head, Node.val, e1, e2, e3, h1, copied], h2⟩
    | enumeration hob =>
      obtain ⟨m', h1, h2⟩ := h.enumeration hi hc (x := .mk id v n 0 false []) hob.2.2
      obtain ⟨_, h0, f, qs, hf, hinf⟩ := hob
      have e1 : isA db isPointer v = .ok false := by rw [isA_final hf, hinf]; rfl
      have e2 : isA db isEnum v = .ok true := by rw [isA_final hf, hinf]; rfl
      simp only [Node.val] at h1
      exact ⟨m', by simp [DeepCopy.head, Node.val, e1, e2, h1, copied], h2⟩
    | null hob => exact ptr hob
    | loop hob => exact ptr hob
    | unknown hob => exact ptr hob
  | @parts _ id v vs n ks hs hks h1 h2 =>
    suffices hsuf : ∃ m', DeepCopy.head env mode db M B.table (outs.map (·.2)) (.mk id v (extent v.addr n ks) 0 false ks) w ⟨m, live⟩ = .ok (.parts, ⟨m', live⟩) ∧
        Made env mode db st₀ M dst B m m' (.mk id v (extent v.addr n ks) 0 false ks) w by
      obtain ⟨m', h1, h2⟩ := hsuf
      exact ⟨Head.parts, m', h1, h2, .inl ⟨rfl, rfl⟩⟩
    cases hs with
    | struct hob => exact parts hob (by simp) (by simp) (by simp) (by simp)
    | array hob => exact parts hob (by simp) (by simp) (by simp) (by simp)
    | noElements hob => exact parts hob (by simp) (by simp) (by simp) (by simp)
    | unionMember hob =>
      refine parts hob (by simp) (by simp) (by simp) (fun _ _ _ => .inl ?_)
      intro hk
      simp only [Node.kids] at hk
      subst hk
      simp at hks
    | union hob =>
      have hk : ks = [] := by simpa using hks
      subst hk
      by_cases hn : n = 0
      · exact parts hob (by simp) (by simp) (by simp) (fun _ _ _ => .inr hn)
      · obtain ⟨m', g1, g2⟩ := h.union hi hc (x := .mk id v (extent v.addr n []) 0 false []) hob.2.2 rfl (Nat.pos_of_ne_zero hn) live
        obtain ⟨_, h0, f, qs, hf, hinf⟩ := hob
        have e1 : isA db isPointer v = .ok false := by rw [isA_final hf, hinf]; rfl
        have e2 : isA db isEnum v = .ok false := by rw [isA_final hf, hinf]; rfl
        have e3 : isA db isBase v = .ok false := by rw [isA_final hf, hinf]; rfl
        have e4 : Deep.finalKind db v = .ok 17 := by rw [(Deep.kinds h0 h0 hf hf).1]; simp [kind, hinf, kindOf]
        have hn' : n > 0 := Nat.pos_of_ne_zero hn
        refine ⟨m', ?_, g2⟩
        simp only [Node.val, Node.size] at g1
        simp only [DeepCopy.head, Node.val, Node.kids, Node.size, e1, e2, e3, e4, Outcome.bind_ok, if_false, Bool.false_eq_true]
        rw [if_pos ⟨rfl, trivial, hn'⟩]
        exact g1
  | @target _ id v n k hs hk =>
    cases hs with
    | @target ty _ a _ hob hsz hh ha hfr htg =>
      obtain ⟨m', g1, g2⟩ := h.followed hi hc (x := .mk id v n 0 true [k]) (k := k) rfl rfl hob hh ha live
      obtain ⟨_, h0, f, qs, hf, hinf⟩ := hob
      have e1 : isA db isPointer v = .ok true := by rw [isA_final hf, hinf]; rfl
      refine ⟨_, m', ?_, g2, .inr ⟨rfl, k, rfl, rfl⟩⟩
      simp only [Node.val] at g1
      simp [DeepCopy.head, Node.val, Node.kids, e1, g1]
  | args hs =>
    exfalso
    cases hs with
    | arguments h => exact hcl.1 h
    | call h =>
      rcases h with h | h
      · exact hcl.2.1 _ _ h.2.2
      · exact hcl.2.2 _ _ h.2.2
end

end Verif.DeepCopy
