import Verif.Handlers.Lemmas
/-
Property theorems of the tag handlers: C36, C37, C57, C58, C59.
-/
namespace Verif.Handlers
open Verif Verif.Entry Verif.Entry.Spec Verif.Value Verif.Value.Spec Verif.Handlers.Spec

/-! ### Example objects -/

/-- `struct { int tag; int cnt; int *data; union { int i; char *c; } u; char *s; }`, and a
struct with a 64-bit selector. -/
def hDb : Db
  | 0 => { info := .base 4 6, name := some [105, 110, 116] }
  | 1 => { info := .base 1 7, name := some [99, 104, 97, 114] }
  | 2 => { info := .pointer (some 0) }
  | 3 => { info := .pointer (some 1) }
  | 4 => { info := .member { type := some 0, byteOffset := 0 }, name := some [116] }
  | 5 => { info := .member { type := some 0, byteOffset := 4 }, name := some [110] }
  | 6 => { info := .member { type := some 2, byteOffset := 8 }, name := some [100] }
  | 7 => { info := .member { type := some 10, byteOffset := 16 }, name := some [117] }
  | 8 => { info := .member { type := some 0, byteOffset := 0 }, name := some [105] }
  | 9 => { info := .member { type := some 3, byteOffset := 0 }, name := some [99] }
  | 10 => { info := .struct .union 8 [8, 9] }
  | 11 => { info := .struct .struct 32 [4, 5, 6, 7, 16] }
  | 12 => { info := .base 8 8, name := some [117, 110, 115, 105, 103, 110, 101, 100, 32, 108, 111, 110, 103, 32, 105, 110, 116] }
  | 13 => { info := .member { type := some 12, byteOffset := 0 }, name := some [98] }
  | 14 => { info := .struct .struct 24 [13, 6, 7] }
  | 15 => { info := .pointer (some 11) }
  | 16 => { info := .member { type := some 3, byteOffset := 24 }, name := some [115] }
  | 17 => { info := .pointer (some 12) }
  | 18 => { info := .param false (some 0), name := some [110] }
  | 19 => { info := .param false (some 2), name := some [100] }
  | 20 => { info := .subprogram none [18, 19], name := some [102] }
  | _ => { info := .compileUnit }

/-- tag 1, cnt 3, data 112, u.i 7, s 40, and the string "ab" at 40. -/
def hMem : Mem := fun a => if 8 ≤ a then
  ([1, 0, 0, 0, 3, 0, 0, 0, 112, 0, 0, 0, 0, 0, 0, 0, 7, 0, 0, 0, 0, 0, 0, 0, 40, 0, 0, 0, 0, 0, 0, 0, 97, 98, 0] : List UInt8)[a - 8]? else none

theorem hNamed : Named hDb := by
  intro r bs be h hn
  unfold hDb at h hn
  split at h <;> first | (simp at h; done) | (simp at hn; done) | skip

theorem hNot (r : Ref) (h : r = 0 ∨ r = 1 ∨ r = 2 ∨ r = 3 ∨ r = 10 ∨ r = 11 ∨ r = 12 ∨ r = 14 ∨ r = 15 ∨ r = 17 ∨ r = 20) : ∀ t, ¬ Alias hDb r t := by
  intro t ha
  rcases h with rfl | rfl | rfl | rfl | rfl | rfl | rfl | rfl | rfl | rfl | rfl <;> cases ha <;> rename_i ha <;> exact absurd ha (by simp [hDb])

theorem hFinal (r : Ref) (h : r = 0 ∨ r = 1 ∨ r = 2 ∨ r = 3 ∨ r = 10 ∨ r = 11 ∨ r = 12 ∨ r = 14 ∨ r = 15 ∨ r = 17 ∨ r = 20) :
    Final hDb r (some r) [] := .here (hNot r h)

theorem hMember {r x : Ref} {mi : MemberInfo} (h : (hDb r).info = .member mi) (hx : mi.type = some x) (hb : Final hDb x (some x) []) :
    Final hDb r (some x) [] := by
  have := Final.step (hx ▸ Alias.member h : Alias hDb r (some x)) hb
  simpa [own, h] using this

theorem hStruct : Struct hDb ⟨11, 8⟩ [4, 5, 6, 7, 16] :=
  ⟨by decide, ⟨11, [], _, _, hFinal 11 (by decide), rfl⟩, by
    intro r hr
    simp at hr
    rcases hr with rfl | rfl | rfl | rfl | rfl <;> exact ⟨_, rfl⟩⟩

theorem hUnion (a : Nat) (h : a ≠ 0) : Struct hDb ⟨7, a⟩ [8, 9] :=
  ⟨h, ⟨10, [], _, _, hMember (r := 7) rfl rfl (hFinal 10 (by decide)), rfl⟩, by
    intro r hr
    simp at hr
    rcases hr with rfl | rfl <;> exact ⟨_, rfl⟩⟩

theorem hInt (r : Ref) {mi : MemberInfo} (h : (hDb r).info = .member mi) (ht : mi.type = some 0)
    (hb : mi.bitOffset = none ∧ mi.bitSize = none ∧ mi.dataBitOffset = none) {m : Mem} {a n : Nat} (ha : a ≠ 0) (hh : Holds m a 4 n) (cfg : Plat) :
    Number cfg hDb m ⟨r, a⟩ (intOf .int n) :=
  .plain (x := 0) (t := .int) (hMember h ht (hFinal 0 (by decide))) ⟨4, 6, rfl, rfl, fun _ => rfl, fun _ => rfl⟩ (by simp [Integral])
    (by
      intro ⟨mi', hi, hx⟩
      rw [show (hDb (Value.entry ⟨r, a⟩)).info = .member mi from h] at hi
      cases hi
      simp [hb.1, hb.2.1, hb.2.2] at hx) ha hh (by simp)

/-! ### C36 -/

/-- C36 (selector by field): for the enclosing object `parent` and the union object `v` in
it, with a selector field that is an integer within `int`: the member chosen is the one the
first matching case (or, without cases, the number itself) stands for; a case naming an
unknown member and a selector without a case are errors; numbers that are no member numbers
choose nothing; so does a missing selector field; a selector field that is not a number is
an error. -/
theorem C36_select_partial (cfg : Plat) (db : Db) (hn : Named db) (m : Mem) (v parent : Value) (outer : List (Option Value))
    (ums pms : List Ref) (hv : Struct db v ums) (hp : Struct db parent pms) (name : Name) (hname : name ≠ []) (cases : List UnionCase) :
    (∀ w n, Field db parent pms name w → Number cfg db m w n → IsInt n →
      (∀ i u, Chosen db ums cases n i → Spec.Member db v ums i u →
        unionSelect cfg db m (some v :: some parent :: outer) (some .unionMember) (some (.field (some name) cases)) = .ok (0, some u)) ∧
      (∀ c s, FirstCase UnionCase.val cases n c → c.name = some s → NoField db ums s →
        unionSelect cfg db m (some v :: some parent :: outer) (some .unionMember) (some (.field (some name) cases)) = .ok (-14, none)) ∧
      (∀ c, FirstCase UnionCase.val cases n c → c.name = none → (c.id < 0 ∨ c.id ≥ ums.length) →
        unionSelect cfg db m (some v :: some parent :: outer) (some .unionMember) (some (.field (some name) cases)) = .ok (0, none)) ∧
      (cases = [] → (n < 0 ∨ n ≥ ums.length) →
        unionSelect cfg db m (some v :: some parent :: outer) (some .unionMember) (some (.field (some name) cases)) = .ok (0, none)) ∧
      (cases ≠ [] → (∀ c ∈ cases, c.val ≠ n) →
        unionSelect cfg db m (some v :: some parent :: outer) (some .unionMember) (some (.field (some name) cases)) = .ok (-2, none))) ∧
    (∀ w, Field db parent pms name w → NoNumber db w →
      unionSelect cfg db m (some v :: some parent :: outer) (some .unionMember) (some (.field (some name) cases)) = .ok (-14, none)) ∧
    (NoField db pms name →
      unionSelect cfg db m (some v :: some parent :: outer) (some .unionMember) (some (.field (some name) cases)) = .ok (0, none)) := by
  have hsel : ∀ res, memberSibling cfg db m parent name = .ok res →
      unionSelect cfg db m (some v :: some parent :: outer) (some .unionMember) (some (.field (some name) cases)) = selected db v cases res := by
    intro res hres
    have hl : level (some v :: some parent :: outer) > 0 := by simp [level]
    cases name with
    | nil => exact absurd rfl hname
    | cons b bs =>
      simp [unionSelect, hl, value, hasMembers_struct hv, hasMembers_struct hp, hres]
  obtain ⟨x, k, size, _, hi, qs, hfin⟩ := struct_final hv
  obtain ⟨_, hn1, hn2, _, _⟩ := (C19_members db v.entry _ _ hfin).1 x k size ums rfl hi
  refine ⟨?_, ?_, ?_⟩
  · intro w n hw hnum hint
    have hs := memberSibling_field hp hw (cfg := cfg) (m := m) (res := .num n) (.inl ⟨n, number_num hn hnum hint, rfl⟩)
    rw [hsel _ hs]
    refine ⟨?_, ?_, ?_, ?_, ?_⟩
    · intro i u hch hu
      have hmv := memberValue_struct hv hu
      cases hch with
      | direct => simp [selected, hmv]
      | @name _ _ c s _ hfc hcn hfst =>
        obtain ⟨pre, post, rfl, hc, hpre⟩ := hfc
        have := hn1 s i hfst
        simp [selected, caseLoop_first hc hpre, caseLoop, hc, hcn, this, hmv, show ¬ ((i : Int) < 0) by omega]
      | @number _ _ c _ hfc hcn hid =>
        obtain ⟨pre, post, rfl, hc, hpre⟩ := hfc
        simp [selected, caseLoop_first hc hpre, caseLoop, hc, hcn, hid, hmv]
    · intro c s hfc hcn hno
      obtain ⟨pre, post, rfl, hc, hpre⟩ := hfc
      have := hn2 s hno
      simp [selected, caseLoop_first hc hpre, caseLoop, hc, hcn, this]
    · intro c hfc hcn hid
      obtain ⟨pre, post, rfl, hc, hpre⟩ := hfc
      simp [selected, caseLoop_first hc hpre, caseLoop, hc, hcn, memberValue_out hv hid]
    · intro hcs hid
      subst hcs
      simp [selected, memberValue_out hv hid]
    · intro hcs hno
      have : cases.length > 0 := List.length_pos_iff.mpr hcs
      simp [selected, this, caseLoop_none hno]
  · intro w hw hnn
    rw [hsel _ (memberSibling_field hp hw (cfg := cfg) (m := m) (res := .bad) (.inr ⟨⟨_, no_number_num hn hnn⟩, rfl⟩))]
    rfl
  · intro hno
    rw [hsel _ (memberSibling_none hp hno)]
    rfl

/-- C36 (constant selection): always the given member; nothing for numbers that are no member
numbers.  And requests that the handler is not for leave the selection alone. -/
theorem C36_constant (cfg : Plat) (db : Db) (m : Mem) (v : Value) (parent : Option Value) (outer : List (Option Value))
    (ums : List Ref) (hv : Struct db v ums) :
    (∀ (i : Nat) u, Spec.Member db v ums i u →
      unionSelect cfg db m (some v :: parent :: outer) (some .unionMember) (some (.constant i)) = .ok (0, some u)) ∧
    (∀ i : Int, (i < 0 ∨ i ≥ ums.length) →
      unionSelect cfg db m (some v :: parent :: outer) (some .unionMember) (some (.constant i)) = .ok (0, none)) ∧
    (∀ stack ev ctx, ev ≠ Event.unionMember → unionSelect cfg db m stack (some ev) ctx = .ok (0, none)) ∧
    (∀ ctx, unionSelect cfg db m [some v] (some .unionMember) ctx = .ok (0, none)) := by
  have hl : level (some v :: parent :: outer) > 0 := by simp [level]
  refine ⟨?_, ?_, ?_, ?_⟩
  · intro i u hu
    simp [unionSelect, hl, value, hasMembers_struct hv, memberValue_struct hv hu]
  · intro i hi
    simp [unionSelect, hl, value, hasMembers_struct hv, memberValue_out hv hi]
  · intro stack ev ctx hev
    simp [unionSelect, hev]
  · intro ctx
    simp [unionSelect, level]

/-- C36, badly used: without a context or a field name, or outside a struct, an error. -/
theorem C36_refused (cfg : Plat) (db : Db) (m : Mem) (v parent : Value) (outer : List (Option Value)) :
    unionSelect cfg db m (some v :: some parent :: outer) (some .unionMember) none = .ok (-22, none) ∧
    (∀ cases, unionSelect cfg db m (some v :: some parent :: outer) (some .unionMember) (some (.field none cases)) = .ok (-22, none)) ∧
    (∀ cases, unionSelect cfg db m (some v :: some parent :: outer) (some .unionMember) (some (.field (some []) cases)) = .ok (-22, none)) ∧
    (∀ ums name cases, Struct db v ums → NoStruct db parent →
      unionSelect cfg db m (some v :: some parent :: outer) (some .unionMember) (some (.field (some name) cases)) = .ok (-22, none)) ∧
    (∀ name cases, NoStruct db v →
      unionSelect cfg db m (some v :: some parent :: outer) (some .unionMember) (some (.field (some name) cases)) = .ok (-22, none)) ∧
    (∀ id, NoStruct db v →
      unionSelect cfg db m (some v :: some parent :: outer) (some .unionMember) (some (.constant id)) = .ok (-22, none)) := by
  have hl : level (some v :: some parent :: outer) > 0 := by simp [level]
  refine ⟨by simp [unionSelect, hl], fun _ => by simp [unionSelect, hl], fun _ => by simp [unionSelect, hl], ?_, ?_, ?_⟩
  · intro ums name cases hv hp
    cases name with
    | nil => simp [unionSelect, hl]
    | cons b bs => simp [unionSelect, hl, value, hasMembers_struct hv, hasMembers_no hp]
  · intro name cases hv
    cases name with
    | nil => simp [unionSelect, hl]
    | cons b bs => simp [unionSelect, hl, value, hasMembers_no hv]
  · intro id hv
    simp [unionSelect, hl, value, hasMembers_no hv]

theorem hTagField : Field hDb ⟨11, 8⟩ [4, 5, 6, 7, 16] [116] ⟨4, 8⟩ := ⟨0, ⟨⟨4, rfl, rfl⟩, fun j hj => by omega⟩, 4, _, rfl, rfl, rfl⟩
theorem hCntField : Field hDb ⟨11, 8⟩ [4, 5, 6, 7, 16] [110] ⟨5, 12⟩ := by
  refine ⟨1, ⟨⟨5, rfl, rfl⟩, fun j hj m hm => ?_⟩, 5, _, rfl, rfl, rfl⟩
  have : j = 0 := by omega
  subst this
  simp at hm
  subst hm
  decide
theorem hTag (cfg : Plat) : Number cfg hDb hMem ⟨4, 8⟩ 1 := hInt 4 rfl rfl ⟨rfl, rfl, rfl⟩ (by decide) (n := 1) ⟨by decide, by decide⟩ cfg
theorem hCnt (cfg : Plat) : Number cfg hDb hMem ⟨5, 12⟩ 3 := hInt 5 rfl rfl ⟨rfl, rfl, rfl⟩ (by decide) (n := 3) ⟨by decide, by decide⟩ cfg

/-- tag is 1: the first case for 1 chooses member "c". -/
example (cfg : Plat) : unionSelect cfg hDb hMem [some ⟨7, 24⟩, some ⟨11, 8⟩] (some .unionMember)
    (some (.field (some [116]) [⟨0, none, 0⟩, ⟨1, some [99], 0⟩, ⟨1, none, 0⟩])) = .ok (0, some ⟨9, 24⟩) := by
  obtain ⟨h, _⟩ := C36_select_partial cfg hDb hNamed hMem ⟨7, 24⟩ ⟨11, 8⟩ [] _ _ (hUnion 24 (by decide)) hStruct [116] (by decide)
    [⟨0, none, 0⟩, ⟨1, some [99], 0⟩, ⟨1, none, 0⟩]
  refine (h _ 1 hTagField (hTag cfg) ⟨by decide, by decide⟩).1 1 _ (.name (c := ⟨1, some [99], 0⟩) ⟨[⟨0, none, 0⟩], _, rfl, rfl, by simp⟩ rfl ?_) ⟨9, _, rfl, rfl, rfl⟩
  refine ⟨⟨9, rfl, rfl⟩, fun j hj m hm => ?_⟩
  have : j = 0 := by omega
  subst this
  simp at hm
  subst hm
  decide

/-- C36 fails for selectors outside `int`: an `unsigned long` selector holding 2^32 + 1 has
no case, but the member of the case for 1 is chosen. -/
theorem C36_wide_selector_false (cfg : Plat) :
    ∃ m : Mem, Struct hDb ⟨14, 8⟩ [13, 6, 7] ∧ Field hDb ⟨14, 8⟩ [13, 6, 7] [98] ⟨13, 8⟩ ∧ Number cfg hDb m ⟨13, 8⟩ (2 ^ 32 + 1) ∧
      unionSelect cfg hDb m [some ⟨7, 24⟩, some ⟨14, 8⟩] (some .unionMember) (some (.field (some [98]) [⟨1, none, 0⟩])) = .ok (0, some ⟨8, 24⟩) := by
  let m : Mem := fun a => if 8 ≤ a then ([1, 0, 0, 0, 1, 0, 0, 0] : List UInt8)[a - 8]? else none
  have hs : Struct hDb ⟨14, 8⟩ [13, 6, 7] :=
    ⟨by decide, ⟨14, [], _, _, hFinal 14 (by decide), rfl⟩, by
      intro r hr
      simp at hr
      rcases hr with rfl | rfl | rfl <;> exact ⟨_, rfl⟩⟩
  have hf : Field hDb ⟨14, 8⟩ [13, 6, 7] [98] ⟨13, 8⟩ := ⟨0, ⟨⟨13, rfl, rfl⟩, fun j hj => by omega⟩, 13, _, rfl, rfl, rfl⟩
  have hfin : Final hDb 13 (some 12) [] := hMember (r := 13) rfl rfl (hFinal 12 (by decide))
  have hd : Describes hDb 12 .ulong := ⟨8, 8, rfl, rfl, fun _ => rfl, fun _ => rfl⟩
  have hb : ¬ IsBitfield hDb 13 := by
    intro ⟨mi, hi, hx⟩
    simp [hDb] at hi
    subst hi
    simp at hx
  have hh : Holds m 8 8 4294967297 := ⟨by decide, by decide⟩
  have hnum : Number cfg hDb m ⟨13, 8⟩ (intOf .ulong 4294967297) := .plain (x := 12) (t := .ulong) hfin hd (by simp [Integral]) hb (by decide) hh (by simp)
  refine ⟨m, hs, hf, hnum, ?_⟩
  have hg := (getTy_plain (cfg := cfg) (v := ⟨13, 8⟩) hNamed hfin (by decide) hd hb).1 _ hh
  have ht : toInt32 (numVal .ulong 4294967297) = 1 := by decide
  have hn : num cfg hDb m (some ⟨13, 8⟩) = .ok (.ok 1) := by
    simp only [num, numLoop_hit hNamed hfin hd hg (by decide) numOrder (by decide), Outcome.bind_ok, ht]
    rfl
  have hsib := memberSibling_field hs hf (cfg := cfg) (m := m) (res := .num 1) (.inl ⟨1, hn, rfl⟩)
  have hmv := memberValue_struct (hUnion 24 (by decide)) (i := 0) (w := ⟨8, 24⟩) ⟨8, _, rfl, rfl, rfl⟩
  simp [unionSelect, level, value, hasMembers_struct hs, hasMembers_struct (hUnion 24 (by decide)), hsib, selected, caseLoop]
  rw [show memberValue hDb (some ⟨7, 24⟩) 0 = .ok (some ⟨8, 24⟩) from hmv]
  rfl

/-! ### C37 -/

/-- C37 (the count is a field of the enclosing struct): for a count within `int`, the pointer
or array is turned into an array of that many elements at the pointer's target (at the
array); nothing for NULL pointers or when there is no such field; a field that is not a
number is an error. -/
theorem C37_count_by_partial (env : Env) (cfg : Plat) (db : Db) (hn : Named db) (m : Mem) (v parent : Value) (outer : List (Option Value))
    (ms : List Ref) (hp : Struct db parent ms) (name : Name) (hname : name ≠ []) (ev : Event) (hev : ev = .pointerArrayCount ∨ ev = .flexArrayCount) :
    (∀ w n, Field db parent ms name w → Number cfg db m w n → IsInt n → ∀ res, Elements db m v n res →
      countBy env cfg db m (some v :: some parent :: outer) (some ev) (some (some name)) = .ok (0, res)) ∧
    (∀ w, Field db parent ms name w → NoNumber db w →
      countBy env cfg db m (some v :: some parent :: outer) (some ev) (some (some name)) = .ok (-14, none)) ∧
    (NoField db ms name →
      countBy env cfg db m (some v :: some parent :: outer) (some ev) (some (some name)) = .ok (0, none)) := by
  have hc : ∀ res, memberSibling cfg db m parent name = .ok res →
      countBy env cfg db m (some v :: some parent :: outer) (some ev) (some (some name)) = counted db m v res := by
    intro res hres
    have hl : level (some v :: some parent :: outer) > 0 := by simp [level]
    cases name with
    | nil => exact absurd rfl hname
    | cons b bs => simp [countBy, hl, hev, value, hasMembers_struct hp, hres]
  refine ⟨?_, ?_, ?_⟩
  · intro w n hw hnum hint res he
    rw [hc _ (memberSibling_field hp hw (cfg := cfg) (m := m) (res := .num n) (.inl ⟨n, number_num hn hnum hint, rfl⟩))]
    simp [counted, elements_value he]
  · intro w hw hnn
    rw [hc _ (memberSibling_field hp hw (cfg := cfg) (m := m) (res := .bad) (.inr ⟨⟨_, no_number_num hn hnn⟩, rfl⟩))]
    rfl
  · intro hno
    rw [hc _ (memberSibling_none hp hno)]
    rfl

/-- C37 (the count is another argument of the recorded call): the same. -/
theorem C37_parameters_partial (env : Env) (cfg : Plat) (db : Db) (hn : Named db) (m : Mem) (v parent : Value) (outer : List (Option Value))
    (hcall : Call env db parent) (hns : NoStruct db parent) (ps : List Value) (hps : env.params parent.addr = ps) (haddr : ∀ p ∈ ps, p.addr ≠ 0)
    (name : Name) (hname : name ≠ []) (ev : Event) (hev : ev = .pointerArrayCount ∨ ev = .flexArrayCount) :
    (∀ i w, First db (ps.map (·.entry)) name i → ps[i]? = some w →
      (∀ n, Number cfg db m w n → IsInt n → ∀ res, Elements db m v n res →
        countBy env cfg db m (some v :: some parent :: outer) (some ev) (some (some name)) = .ok (0, res)) ∧
      (NoNumber db w → countBy env cfg db m (some v :: some parent :: outer) (some ev) (some (some name)) = .ok (-14, none))) ∧
    (NoField db (ps.map (·.entry)) name →
      countBy env cfg db m (some v :: some parent :: outer) (some ev) (some (some name)) = .ok (0, none)) := by
  have hc : ∀ res, paramSibling env cfg db m parent name = .ok res →
      countBy env cfg db m (some v :: some parent :: outer) (some ev) (some (some name)) = counted db m v res := by
    intro res hres
    have hl : level (some v :: some parent :: outer) > 0 := by simp [level]
    cases name with
    | nil => exact absurd rfl hname
    | cons b bs => simp [countBy, hl, hev, value, hasMembers_no hns, hasLoad_call hcall, hres]
  have hget : ∀ j, j < ps.length → ∃ s, ps[j]? = some s ∧ paramItem env parent j = .ok (some s) := by
    intro j hj
    have hr : ps[j]? = some ps[j] := List.getElem?_eq_getElem hj
    refine ⟨ps[j], hr, ?_⟩
    have := haddr ps[j] (List.getElem_mem hj)
    simp [paramItem, hps, hr, newValue, this]
  refine ⟨?_, ?_⟩
  · intro i w hfst hw
    have hil : i < ps.length := by
      rcases Nat.lt_or_ge i ps.length with hl | hl
      · exact hl
      · rw [List.getElem?_eq_none hl] at hw; cases hw
    obtain ⟨⟨r, hr, hrn⟩, hj⟩ := hfst
    have hwn : (db w.entry).name = some name := by
      rw [List.getElem?_map, hw] at hr
      cases hr
      exact hrn
    have hsib : ∀ res, (∃ n, num cfg db m (some w) = .ok (.ok n) ∧ res = .num n) ∨ (∃ c, num cfg db m (some w) = .ok (.error c)) ∧ res = .bad →
        paramSibling env cfg db m parent name = .ok res := by
      intro res hres
      unfold paramSibling
      rw [hps]
      refine siblingLoop_at hwn hres i _ 0 hil (fun j hji => ?_) ?_
      · obtain ⟨s, hs, hg⟩ := hget j (by omega)
        rw [Nat.zero_add]
        exact ⟨s, hg, hj j hji _ (by rw [List.getElem?_map, hs]; rfl)⟩
      · obtain ⟨s, hs, hg⟩ := hget i hil
        rw [hw] at hs
        cases hs
        rw [Nat.zero_add]
        exact hg
    refine ⟨?_, ?_⟩
    · intro n hnum hint res he
      rw [hc _ (hsib (.num n) (.inl ⟨n, number_num hn hnum hint, rfl⟩))]
      simp [counted, elements_value he]
    · intro hnn
      rw [hc _ (hsib .bad (.inr ⟨⟨_, no_number_num hn hnn⟩, rfl⟩))]
      rfl
  · intro hno
    have : paramSibling env cfg db m parent name = .ok .missing := by
      unfold paramSibling
      rw [hps]
      refine siblingLoop_missing _ 0 (fun j hj => ?_)
      obtain ⟨s, hs, hg⟩ := hget j hj
      rw [Nat.zero_add]
      exact ⟨s, hg, hno _ (List.mem_map_of_mem (List.mem_of_getElem? hs))⟩
    rw [hc _ this]
    rfl

/-- C37, badly used or not concerned. -/
theorem C37_refused (env : Env) (cfg : Plat) (db : Db) (m : Mem) (v parent : Value) (outer : List (Option Value)) :
    (∀ ev, ev = Event.pointerArrayCount ∨ ev = .flexArrayCount →
      countBy env cfg db m (some v :: some parent :: outer) (some ev) none = .ok (-22, none) ∧
      countBy env cfg db m (some v :: some parent :: outer) (some ev) (some none) = .ok (-22, none) ∧
      countBy env cfg db m (some v :: some parent :: outer) (some ev) (some (some [])) = .ok (-22, none)) ∧
    (∀ stack ev ctx, ev = Event.unionMember ∨ ev = .vaList → countBy env cfg db m stack (some ev) ctx = .ok (0, none)) ∧
    (∀ ev ctx, countBy env cfg db m [some v] (some ev) ctx = .ok (0, none)) := by
  have hl : level (some v :: some parent :: outer) > 0 := by simp [level]
  refine ⟨?_, ?_, ?_⟩
  · intro ev hev
    refine ⟨?_, ?_, ?_⟩ <;> simp [countBy, hev, hl]
  · intro stack ev ctx hev
    rcases hev with rfl | rfl <;> simp [countBy]
  · intro ev ctx
    simp [countBy, level]

/-- cnt is 3: `data` is an array of 3 `int` at 112. -/
example (env : Env) (cfg : Plat) : countBy env cfg hDb hMem [some ⟨6, 16⟩, some ⟨11, 8⟩] (some .pointerArrayCount) (some (some [110])) =
    .ok (0, some ({ info := .array (some 0) 3 }, 112)) := by
  obtain ⟨h, _⟩ := C37_count_by_partial env cfg hDb hNamed hMem ⟨6, 16⟩ ⟨11, 8⟩ [] _ hStruct [110] (by decide) .pointerArrayCount (.inl rfl)
  exact h _ 3 hCntField (hCnt cfg) ⟨by decide, by decide⟩ _ (.target (x := 2) (by decide) (hMember (r := 6) rfl rfl (hFinal 2 (by decide))) rfl ⟨by decide, by decide⟩ (by decide) rfl)

/-- the same for a recorded call `f(n, d)`. -/
example (cfg : Plat) : countBy ⟨fun _ => false, fun _ => [⟨18, 12⟩, ⟨19, 16⟩]⟩ cfg hDb hMem [some ⟨19, 16⟩, some ⟨20, 500⟩] (some .pointerArrayCount) (some (some [110])) =
    .ok (0, some ({ info := .array (some 0) 3 }, 112)) := by
  have h18 : Final hDb 18 (some 0) [] := by
    have := Final.step (Alias.param (db := hDb) (r := 18) rfl) (hFinal 0 (by decide))
    simpa [own, hDb] using this
  have h19 : Final hDb 19 (some 2) [] := by
    have := Final.step (Alias.param (db := hDb) (r := 19) rfl) (hFinal 2 (by decide))
    simpa [own, hDb] using this
  obtain ⟨h, _⟩ := C37_parameters_partial ⟨fun _ => false, fun _ => [⟨18, 12⟩, ⟨19, 16⟩]⟩ cfg hDb hNamed hMem ⟨19, 16⟩ ⟨20, 500⟩ []
    (.func (x := 20) (hFinal 20 (by decide)) (.inl rfl)) ⟨some 20, [], hFinal 20 (by decide), by rintro x k size ms ⟨⟩; simp [hDb]⟩ _ rfl (by decide)
    [110] (by decide) .pointerArrayCount (.inl rfl)
  refine (h 0 ⟨18, 12⟩ ⟨⟨18, rfl, rfl⟩, fun j hj => by omega⟩ rfl).1 (intOf .int 3)
    (.plain (x := 0) (t := .int) h18 ⟨4, 6, rfl, rfl, fun _ => rfl, fun _ => rfl⟩ (by simp [Integral]) ?_ (by decide) ⟨by decide, by decide⟩ (by simp)) ⟨by decide, by decide⟩ _
    (.target (x := 2) (by decide) h19 rfl ⟨by decide, by decide⟩ (by decide) rfl)
  intro ⟨mi, hi, _⟩
  simp [hDb] at hi

/-- C37 fails for counts outside `int`: an `unsigned long` count of 2^32 + 1 gives an array
of 1 element. -/
theorem C37_wide_count_false (env : Env) (cfg : Plat) :
    ∃ m : Mem, Field hDb ⟨14, 8⟩ [13, 6, 7] [98] ⟨13, 8⟩ ∧ Number cfg hDb m ⟨13, 8⟩ (2 ^ 32 + 1) ∧
      countBy env cfg hDb m [some ⟨6, 16⟩, some ⟨14, 8⟩] (some .pointerArrayCount) (some (some [98])) =
        .ok (0, some ({ info := .array (some 0) 1 }, 112)) := by
  let m : Mem := fun a => if 8 ≤ a then ([1, 0, 0, 0, 1, 0, 0, 0, 112, 0, 0, 0, 0, 0, 0, 0] : List UInt8)[a - 8]? else none
  have hs : Struct hDb ⟨14, 8⟩ [13, 6, 7] :=
    ⟨by decide, ⟨14, [], _, _, hFinal 14 (by decide), rfl⟩, by
      intro r hr
      simp at hr
      rcases hr with rfl | rfl | rfl <;> exact ⟨_, rfl⟩⟩
  have hf : Field hDb ⟨14, 8⟩ [13, 6, 7] [98] ⟨13, 8⟩ := ⟨0, ⟨⟨13, rfl, rfl⟩, fun j hj => by omega⟩, 13, _, rfl, rfl, rfl⟩
  have hfin : Final hDb 13 (some 12) [] := hMember (r := 13) rfl rfl (hFinal 12 (by decide))
  have hd : Describes hDb 12 .ulong := ⟨8, 8, rfl, rfl, fun _ => rfl, fun _ => rfl⟩
  have hb : ¬ IsBitfield hDb 13 := by
    intro ⟨mi, hi, hx⟩
    simp [hDb] at hi
    subst hi
    simp at hx
  have hh : Holds m 8 8 4294967297 := ⟨by decide, by decide⟩
  have hnum : Number cfg hDb m ⟨13, 8⟩ (intOf .ulong 4294967297) := .plain (x := 12) (t := .ulong) hfin hd (by simp [Integral]) hb (by decide) hh (by simp)
  refine ⟨m, hf, hnum, ?_⟩
  have hg := (getTy_plain (cfg := cfg) (v := ⟨13, 8⟩) hNamed hfin (by decide) hd hb).1 _ hh
  have ht : toInt32 (numVal .ulong 4294967297) = 1 := by decide
  have hn : num cfg hDb m (some ⟨13, 8⟩) = .ok (.ok 1) := by
    simp only [num, numLoop_hit hNamed hfin hd hg (by decide) numOrder (by decide), Outcome.bind_ok, ht]
    rfl
  have hsib := memberSibling_field hs hf (cfg := cfg) (m := m) (res := .num 1) (.inl ⟨1, hn, rfl⟩)
  have he := elements_value (db := hDb) (m := m) (v := ⟨6, 16⟩) (n := 1)
    (.target (x := 2) (by decide) (hMember (r := 6) rfl rfl (hFinal 2 (by decide))) rfl (a := 112) ⟨by decide, by decide⟩ (by decide) rfl)
  simp [countBy, level, value, hasMembers_struct hs, hsib, counted, he]

/-! ### C57: strings -/

/-- C57: a pointer to `char` (through typedefs and qualifiers) to a string of `n` characters
becomes an array of `n + 1` elements at the pointer's target, if `n + 1` is an `int`; NULL
pointers, pointers to other types and other objects are refused. -/
theorem C57_string_partial (db : Db) (m : Mem) (v : Value) (outer : List (Option Value)) (ha : v.addr ≠ 0) (ev : Event)
    (hev : ev = .pointerArrayCount ∨ ev = .flexArrayCount) (f : Option Ref) (qs : List Qual) (h : Final db v.entry f qs) :
    (∀ x t c bs be qs', f = some x → (db x).info = .pointer (some t) → Final db t (some c) qs' → (db c).info = .base bs be →
        (db c).name = some [99, 104, 97, 114] →
      (∀ a n, Holds m v.addr 8 a → a ≠ 0 → CString m a n → n + 1 < 2 ^ 31 →
        zeroEnded db m (some v :: outer) (some ev) = .ok (0, some ({ info := .array (some t) ((n : Int) + 1) }, a))) ∧
      (Holds m v.addr 8 0 → zeroEnded db m (some v :: outer) (some ev) = .ok (-14, none))) ∧
    (∀ x t f' qs', f = some x → (db x).info = .pointer (some t) → Final db t f' qs' →
      (∀ c, f' = some c → (∀ bs be, (db c).info ≠ .base bs be) ∨ (db c).name ≠ some [99, 104, 97, 114]) →
      zeroEnded db m (some v :: outer) (some ev) = .ok (-14, none)) ∧
    (∀ x, f = some x → (db x).info = .pointer none → zeroEnded db m (some v :: outer) (some ev) = .ok (-14, none)) ∧
    ((∀ x t, f = some x → (db x).info ≠ .pointer t) → zeroEnded db m (some v :: outer) (some ev) = .ok (-14, none)) := by
  have hl : level (some v :: outer) ≥ 0 := by simp [level]
  have hnm : nm ['c', 'h', 'a', 'r'] = [99, 104, 97, 114] := rfl
  have hpe : ∀ x t, f = some x → (db x).info = .pointer t → finalOf db (some v.entry) isPointer = some (some x) ∧
      pointerEntry db (some v.entry) = some t := by
    intro x t hx hi
    subst hx
    have hfo := finalOf_some h isPointer
    simp only [hi, isPointer, if_true] at hfo
    exact ⟨hfo, by simp [pointerEntry, hfo, hi]⟩
  refine ⟨?_, ?_, ?_, ?_⟩
  · intro x t c bs be qs' hx hi ht hc hcn
    obtain ⟨h1, h2⟩ := hpe x _ hx hi
    subst hx
    have hk : kind db (some c) = 1 := by simp [kind, hc, kindOf]
    refine ⟨?_, ?_⟩
    · intro a n hh h0 hs hn
      have hp := pointer_get (db := db) (m := m) (v := v) (a := a) ⟨ha, ⟨x, qs, some t, h, hi⟩, hh⟩
      have he := elements_value (n := (n : Int) + 1) (.target ha h hi hh h0 rfl)
      have hi32 : toInt32 ((n + 1 : Nat) : Int) = (n : Int) + 1 := by
        unfold toInt32
        rw [Int.bmod_def]
        omega
      have hv0 : value (some v :: outer) 0 = some v := rfl
      simp only [zeroEnded, hev, hl, and_self, if_true, hv0, h1, h2, Outcome.ofLoop_some, Outcome.bind_ok,
        final_entry ht, hk, hnm, hcn, ne_eq, not_true_eq_false, or_self, if_false, hp, h0, strlenOf_spec hs, hi32, he]
      rfl
    · intro hh
      have hp := pointer_get (db := db) (m := m) (v := v) (a := 0) ⟨ha, ⟨x, qs, some t, h, hi⟩, hh⟩
      simp [zeroEnded, hev, hl, value, h1, h2, final_entry ht, hk, hnm, hcn, hp]
  · intro x t f' qs' hx hi ht hno
    obtain ⟨h1, h2⟩ := hpe x _ hx hi
    cases f' with
    | none => simp [zeroEnded, hev, hl, value, h1, h2, final_entry ht]
    | some c =>
      have : kind db (some c) ≠ 1 ∨ (db c).name ≠ some [99, 104, 97, 114] := by
        rcases hno c rfl with hb | hb
        · left
          cases hi : (db c).info with
          | base bs be => exact absurd hi (hb bs be)
          | qual q t => cases q <;> simp [kind, hi, kindOf]
          | reference r _ _ => cases r <;> simp [kind, hi, kindOf]
          | struct k _ _ => cases k <;> simp [kind, hi, kindOf]
          | _ => simp [kind, hi, kindOf]
        · exact .inr hb
      simp [zeroEnded, hev, hl, value, h1, h2, final_entry ht, hnm, this]
  · intro x hx hi
    obtain ⟨h1, h2⟩ := hpe x _ hx hi
    simp [zeroEnded, hev, hl, value, h1, h2, finalEntry]
  · intro hno
    have : finalOf db (some v.entry) isPointer = some none := by
      refine finalOf_none h _ (fun x hx => ?_)
      cases hi : (db x).info with
      | pointer t => exact absurd hi (hno x t hx)
      | _ => rfl
    simp [zeroEnded, hev, hl, value, this]

/-- `s` points to "ab": an array of 3 characters. -/
example : zeroEnded hDb hMem [some ⟨16, 32⟩, some ⟨11, 8⟩] (some .pointerArrayCount) = .ok (0, some ({ info := .array (some 1) 3 }, 40)) := by
  obtain ⟨h, _⟩ := C57_string_partial hDb hMem ⟨16, 32⟩ [some ⟨11, 8⟩] (by decide) .pointerArrayCount (.inl rfl) (some 3) []
    (hMember (r := 16) rfl rfl (hFinal 3 (by decide)))
  refine (h 3 1 1 _ _ _ rfl rfl (hFinal 1 (by decide)) rfl rfl).1 40 2 ⟨by decide, by decide⟩ (by decide) ⟨?_, rfl⟩ (by decide)
  intro k hk
  obtain rfl | rfl : k = 0 ∨ k = 1 := by omega
  · exact ⟨97, rfl, by decide⟩
  · exact ⟨98, rfl, by decide⟩

/-- C57 fails for longer strings: for a string of 2^31 - 1 characters the array has a
negative number of elements. -/
theorem C57_long_string_false : ∃ m : Mem, Holds m 8 8 100 ∧ CString m 100 (2 ^ 31 - 1) ∧
    zeroEnded hDb m [some ⟨3, 8⟩] (some .pointerArrayCount) = .ok (0, some ({ info := .array (some 1) (-2 ^ 31) }, 100)) := by
  let m : Mem := fun a => if a = 8 then some 100 else if 8 ≤ a ∧ a < 16 then some 0
    else if 100 ≤ a ∧ a < 100 + (2 ^ 31 - 1) then some 97 else if a = 100 + (2 ^ 31 - 1) then some 0 else none
  have hh : Holds m 8 8 100 := ⟨by decide, by decide⟩
  have hs : CString m 100 (2 ^ 31 - 1) := by
    refine ⟨fun k hk => ⟨97, ?_, by decide⟩, ?_⟩
    · have h1 : ¬ (100 + k = 8) := by omega
      have h2 : ¬ (8 ≤ 100 + k ∧ 100 + k < 16) := by omega
      have h3 : 100 ≤ 100 + k ∧ 100 + k < 100 + (2 ^ 31 - 1) := by omega
      simp only [m, h1, h2, h3, if_false, if_true, and_self]
    · have h1 : ¬ (100 + (2 ^ 31 - 1) = 8) := by decide
      have h2 : ¬ (8 ≤ 100 + (2 ^ 31 - 1) ∧ 100 + (2 ^ 31 - 1) < 16) := by decide
      have h3 : ¬ (100 ≤ 100 + (2 ^ 31 - 1) ∧ 100 + (2 ^ 31 - 1) < 100 + (2 ^ 31 - 1)) := by decide
      simp only [m, h1, h2, h3, if_false, if_true]
  refine ⟨m, hh, hs, ?_⟩
  have hfin := hFinal 3 (by decide)
  have hfo : finalOf hDb (some 3) isPointer = some (some 3) := finalOf_some hfin isPointer
  have hpe : pointerEntry hDb (some 3) = some (some 1) := by simp [pointerEntry, hfo, hDb]
  have hp := pointer_get (db := hDb) (m := m) (v := ⟨3, 8⟩) (a := 100) ⟨by decide, ⟨3, [], some 1, hfin, rfl⟩, hh⟩
  have he := elements_value (db := hDb) (m := m) (v := ⟨3, 8⟩) (n := -2 ^ 31) (.target (by decide) hfin rfl hh (by decide) rfl)
  have hk : kind hDb (some 1) = 1 := rfl
  have hcn : (hDb 1).name = some (nm ['c', 'h', 'a', 'r']) := rfl
  have hi32 : toInt32 ((2 ^ 31 - 1 + 1 : Nat) : Int) = -2 ^ 31 := by decide
  have hlv : level [some (⟨3, 8⟩ : Value)] ≥ 0 := by decide
  have hv0 : value [some (⟨3, 8⟩ : Value)] 0 = some ⟨3, 8⟩ := rfl
  simp only [zeroEnded, true_or, hlv, and_self, if_true, hv0, hfo, hpe, Outcome.ofLoop_some, Outcome.bind_ok,
    final_entry (hFinal 1 (by decide)), hk, hcn, ne_eq, not_true_eq_false, or_self, if_false, hp, show ¬ (100 = 0) by decide, strlenOf_spec hs, hi32, he]
  rfl

/-! ### C58: the object around a member -/

/-- C58: a pointer to a member becomes one object of the containing type, at the pointer's
target minus the offset of the member.  (The context holds a pointer type: the description
is that of what it points to.) -/
theorem C58_container_of (db : Db) (m : Mem) (v : Value) (outer : List (Option Value)) (loc : Nat) (hloc : loc ≠ 0) (off : UInt64) (e : Ref)
    (a : Nat) (hv : Pointer db m v a) :
    (∀ x t qs, Final db e (some x) qs → (db x).info = .pointer (some t) → off.toNat < a →
      containerOf db m loc (some v :: outer) (some .pointerArrayCount) (some ⟨off, some e⟩) = .ok (0, some ({ info := .array (some t) 1 }, a - off.toNat))) ∧
    (∀ x t qs, Final db e (some x) qs → (db x).info = .pointer (some t) → off.toNat = a →
      containerOf db m loc (some v :: outer) (some .pointerArrayCount) (some ⟨off, some e⟩) = .ok (0, none)) ∧
    (∀ f qs, Final db e f qs → (∀ x, f = some x → (∀ t, (db x).info ≠ .pointer t) ∧ ∀ t c, (db x).info ≠ .array t c) →
      containerOf db m loc (some v :: outer) (some .pointerArrayCount) (some ⟨off, some e⟩) = .ok (0, none)) := by
  have hp := pointer_get hv
  have ha64 : a < 2 ^ 64 := by
    have := hv.2.2.1
    omega
  have hnv : newValue e loc = some ⟨e, loc⟩ := by simp [newValue, hloc]
  have hhold : off.toNat ≤ a → Holds (withLocal m loc (UInt64.ofNat a - off).toNat) loc 8 (a - off.toNat) := by
    intro hle
    have he : (UInt64.ofNat a - off).toNat = a - off.toNat := by
      rw [UInt64.toNat_sub_of_le]
      · simp [Nat.mod_eq_of_lt ha64]
      · rw [UInt64.le_iff_toNat_le]
        simp [Nat.mod_eq_of_lt ha64, hle]
    rw [he]
    refine ⟨by omega, fun k hk => ?_⟩
    have h1 : loc ≤ loc + k ∧ loc + k < loc + 8 := by omega
    simp only [withLocal, h1, and_self, if_true]
    rw [show loc + k - loc = k by omega]
    exact bytesOf_get 8 _ k hk
  refine ⟨?_, ?_, ?_⟩
  · intro x t qs hf hi hlt
    have he := elements_value (db := db) (v := ⟨e, loc⟩) (n := 1) (.target hloc hf hi (hhold (by omega)) (by omega) rfl)
    simp [containerOf, value, hp, hnv, he, deleteValue]
  · intro x t qs hf hi hlt
    have hh := hhold (by omega)
    rw [show a - off.toNat = 0 by omega] at hh
    have he := elements_value (db := db) (v := ⟨e, loc⟩) (n := 1) (.null hloc hf hi hh)
    simp [containerOf, value, hp, hnv, he, deleteValue]
  · intro f qs hf hno
    have he := (C55_element_count_value db (withLocal m loc (UInt64.ofNat a - off).toNat) ⟨e, loc⟩ f qs hf hloc 1).2.2.1 hno
    simp [containerOf, value, hp, hnv, he, deleteValue]

/-- A pointer to the `data` member (offset 8) of the struct at 104. -/
example : containerOf hDb hMem 1000 [some ⟨6, 16⟩] (some .pointerArrayCount) (some ⟨8, some 15⟩) =
    .ok (0, some ({ info := .array (some 11) 1 }, 104)) := by
  obtain ⟨h, _⟩ := C58_container_of hDb hMem ⟨6, 16⟩ [] 1000 (by decide) 8 15 112
    ⟨by decide, ⟨2, [], _, hMember (r := 6) rfl rfl (hFinal 2 (by decide)), rfl⟩, by decide, by decide⟩
  exact h 15 11 [] (hFinal 15 (by decide)) rfl (by decide)

/-! ### C59: pointers whose type depends on a field -/

/-- C59: the pointer is read as a pointer of the type of the first case for the selector
field's number, to as many objects as the count field says (one, if none is given); no
matching case: nothing; selector missing or not a number, or a case without a type: an
error. -/
theorem C59_cast_partial (cfg : Plat) (db : Db) (hn : Named db) (m : Mem) (v parent : Value) (outer : List (Option Value)) (hva : v.addr ≠ 0)
    (ms : List Ref) (hp : Struct db parent ms) (sel : Name) (hsel : sel ≠ []) (cnt : Option Name) (cases : List CastCase) (hcs : cases ≠ []) :
    (∀ w n k, Field db parent ms sel w → Number cfg db m w n → IsInt n →
      ((cnt = none ∨ cnt = some []) ∧ k = 1 ∨ ∃ c w', cnt = some c ∧ c ≠ [] ∧ Field db parent ms c w' ∧ Number cfg db m w' k ∧ IsInt k) →
      (∀ c e res, FirstCase CastCase.val cases n c → c.entry = some e → Elements db m ⟨e, v.addr⟩ k res →
        ptrCast cfg db m (some v :: some parent :: outer) (some .pointerArrayCount) (some ⟨cnt, some sel, cases⟩) = .ok (0, res)) ∧
      (∀ c, FirstCase CastCase.val cases n c → c.entry = none →
        ptrCast cfg db m (some v :: some parent :: outer) (some .pointerArrayCount) (some ⟨cnt, some sel, cases⟩) = .ok (-22, none)) ∧
      ((∀ c ∈ cases, c.val ≠ n) →
        ptrCast cfg db m (some v :: some parent :: outer) (some .pointerArrayCount) (some ⟨cnt, some sel, cases⟩) = .ok (0, none))) ∧
    (∀ w, Field db parent ms sel w → NoNumber db w →
      ptrCast cfg db m (some v :: some parent :: outer) (some .pointerArrayCount) (some ⟨cnt, some sel, cases⟩) = .ok (-22, none)) ∧
    (∀ w n c w', Field db parent ms sel w → Number cfg db m w n → IsInt n → cnt = some c → c ≠ [] → Field db parent ms c w' → NoNumber db w' →
      ptrCast cfg db m (some v :: some parent :: outer) (some .pointerArrayCount) (some ⟨cnt, some sel, cases⟩) = .ok (-22, none)) ∧
    (NoField db ms sel →
      ptrCast cfg db m (some v :: some parent :: outer) (some .pointerArrayCount) (some ⟨cnt, some sel, cases⟩) = .ok (-22, none)) := by
  obtain ⟨x, kk, size, _, hi, qs, hfin⟩ := struct_final hp
  obtain ⟨_, hn1, hn2, _, _⟩ := (C19_members db parent.entry _ _ hfin).1 x kk size ms rfl hi
  have hl : level (some v :: some parent :: outer) > 0 := by simp [level]
  have hlen : ¬ (cases.length = 0) := fun h => hcs (List.length_eq_zero_iff.mp h)
  refine ⟨?_, ?_, ?_, ?_⟩
  · intro w n k hw hnum hint hcnt
    obtain ⟨i, hi1, hs1⟩ := cast_field hp hn1 hw (.inl ⟨n, number_num hn hnum hint, rfl⟩)
    have hi0 : ¬ ((i : Int) < 0) := by omega
    have hmain : ptrCast cfg db m (some v :: some parent :: outer) (some .pointerArrayCount) (some ⟨cnt, some sel, cases⟩) =
        castLoop db m v n k cases := by
      rcases hcnt with ⟨rfl | rfl, rfl⟩ | ⟨c, w', rfl, hc, hw', hnum', hint'⟩
      · simp [ptrCast, hl, hsel, hlen, hcs, value, hasMembers_struct hp, hi1, hi0, hs1]
      · simp [ptrCast, hl, hsel, hlen, hcs, value, hasMembers_struct hp, hi1, hi0, hs1]
      · obtain ⟨j, hj1, hj2⟩ := cast_field hp hn1 hw' (.inl ⟨k, number_num hn hnum' hint', rfl⟩)
        cases c with
        | nil => exact absurd rfl hc
        | cons b bs => simp [ptrCast, hl, hsel, hlen, hcs, value, hasMembers_struct hp, hi1, hi0, hs1, hj1, hj2]
    rw [hmain]
    refine ⟨?_, ?_, castLoop_none⟩
    · intro c e res hfc he hel
      obtain ⟨pre, post, rfl, hc, hpre⟩ := hfc
      rw [castLoop_first hc hpre]
      simp [castLoop, hc, he, newValue, hva, elements_value hel, deleteValue]
    · intro c hfc he
      obtain ⟨pre, post, rfl, hc, hpre⟩ := hfc
      rw [castLoop_first hc hpre]
      simp [castLoop, hc, he]
  · intro w hw hnn
    obtain ⟨i, hi1, hs1⟩ := cast_field (cfg := cfg) (m := m) hp hn1 hw (.inr ⟨⟨_, no_number_num hn hnn⟩, rfl⟩)
    have hi0 : ¬ ((i : Int) < 0) := by omega
    simp [ptrCast, hl, hsel, hlen, hcs, value, hasMembers_struct hp, hi1, hi0, hs1]
  · intro w n c w' hw hnum hint hcnt hc hw' hnn
    subst hcnt
    obtain ⟨i, hi1, hs1⟩ := cast_field hp hn1 hw (.inl ⟨n, number_num hn hnum hint, rfl⟩)
    have hi0 : ¬ ((i : Int) < 0) := by omega
    obtain ⟨j, hj1, hj2⟩ := cast_field (cfg := cfg) (m := m) hp hn1 hw' (.inr ⟨⟨_, no_number_num hn hnn⟩, rfl⟩)
    cases c with
    | nil => exact absurd rfl hc
    | cons b bs => simp [ptrCast, hl, hsel, hlen, hcs, value, hasMembers_struct hp, hi1, hi0, hs1, hj1, hj2]
  · intro hno
    simp [ptrCast, hl, hsel, hlen, hcs, value, hasMembers_struct hp, hn2 sel hno]

/-- tag 1: `data` is read as a pointer to `unsigned long`, 3 of them. -/
example (cfg : Plat) : ptrCast cfg hDb hMem [some ⟨6, 16⟩, some ⟨11, 8⟩] (some .pointerArrayCount)
    (some ⟨some [110], some [116], [⟨0, some 2⟩, ⟨1, some 17⟩]⟩) = .ok (0, some ({ info := .array (some 12) 3 }, 112)) := by
  obtain ⟨h, _⟩ := C59_cast_partial cfg hDb hNamed hMem ⟨6, 16⟩ ⟨11, 8⟩ [] (by decide) _ hStruct [116] (by decide) (some [110]) [⟨0, some 2⟩, ⟨1, some 17⟩] (by simp)
  exact (h _ 1 3 hTagField (hTag cfg) ⟨by decide, by decide⟩ (.inr ⟨_, _, rfl, by decide, hCntField, hCnt cfg, by decide, by decide⟩)).1
    ⟨1, some 17⟩ 17 _ ⟨[⟨0, some 2⟩], [], rfl, rfl, by simp⟩ rfl
    (.target (x := 17) (by decide) (hFinal 17 (by decide)) rfl ⟨by decide, by decide⟩ (by decide) rfl)

/-- C59 fails if the count field does not exist: the process uses a NULL value. -/
theorem C59_missing_count_false (cfg : Plat) (db : Db) (hn : Named db) (m : Mem) (v parent : Value) (outer : List (Option Value))
    (ms : List Ref) (hp : Struct db parent ms) (sel cnt : Name) (hsel : sel ≠ []) (cases : List CastCase) (hcs : cases ≠ []) (hcnt : cnt ≠ [])
    (w : Value) (n : Int) (hw : Field db parent ms sel w) (hnum : Number cfg db m w n) (hint : IsInt n) (hno : NoField db ms cnt) :
    ptrCast cfg db m (some v :: some parent :: outer) (some .pointerArrayCount) (some ⟨some cnt, some sel, cases⟩) = .ub := by
  obtain ⟨x, kk, size, _, hi, qs, hfin⟩ := struct_final hp
  obtain ⟨_, hn1, hn2, _, _⟩ := (C19_members db parent.entry _ _ hfin).1 x kk size ms rfl hi
  have hl : level (some v :: some parent :: outer) > 0 := by simp [level]
  have hlen : ¬ (cases.length = 0) := fun h => hcs (List.length_eq_zero_iff.mp h)
  obtain ⟨i, hi1, hs1⟩ := cast_field hp hn1 hw (.inl ⟨n, number_num hn hnum hint, rfl⟩)
  have hi0 : ¬ ((i : Int) < 0) := by omega
  have hub : castSibling cfg db m parent (-2) = .ub := by
    have hnull : num cfg db m none = .ok (.error (-95)) := rfl
    simp [castSibling, memberValue_out hp (i := -2) (.inl (by decide)), hnull, deleteValue]
  cases cnt with
  | nil => exact absurd rfl hcnt
  | cons b bs => simp [ptrCast, hl, hsel, hlen, hcs, value, hasMembers_struct hp, hi1, hi0, hs1, hn2 _ hno, hub]

/-- The struct of the examples with the count field "zz". -/
example (cfg : Plat) : ptrCast cfg hDb hMem [some ⟨6, 16⟩, some ⟨11, 8⟩] (some .pointerArrayCount)
    (some ⟨some [122, 122], some [116], [⟨1, some 17⟩]⟩) = .ub := by
  refine C59_missing_count_false cfg hDb hNamed hMem ⟨6, 16⟩ ⟨11, 8⟩ [] _ hStruct [116] [122, 122] (by decide) _ (by simp) (by decide)
    _ 1 hTagField (hTag cfg) ⟨by decide, by decide⟩ ?_
  intro r hr
  simp at hr
  rcases hr with rfl | rfl | rfl | rfl | rfl <;> decide

end Verif.Handlers
