import Verif.GoOverride.Spec
namespace Verif.GoOverride
open Verif Spec

theorem has_get {t : Table} {k : Key} {v : Val} (hm : Map t) : Has t k v ↔ t.get k = some v := by
  induction hm with
  | nil => constructor <;> intro h <;> cases h
  | @cons k' v' rest hno hsub hrest _ ih =>
    by_cases hk : k' = k
    · subst hk
      simp only [Table.get, if_true, Option.some.injEq]
      constructor
      · intro h
        cases h with
        | here => rfl
        | there h => exact absurd h (hno _)
      · rintro rfl
        exact .here _ _ _
    · simp only [Table.get, hk, if_false]
      rw [← ih]
      constructor
      · intro h
        cases h with
        | here => exact absurd rfl hk
        | there h => exact h
      · exact .there

theorem has_sub {t : Table} {k : Key} {s : Table} (hm : Map t) (h : Has t k (.table s)) : Map s := by
  induction hm with
  | nil => cases h
  | cons hno hsub hrest _ ih =>
    cases h with
    | here => exact hsub _ rfl
    | there h => exact ih h

theorem has_set {t : Table} {k k' : Key} {v w : Val} (h : Has (t.set k v) k' w) : (k' = k ∧ w = v) ∨ Has t k' w := by
  cases t with
  | nil =>
    simp only [Table.set] at h
    cases h with
    | here => exact .inl ⟨rfl, rfl⟩
    | there h => cases h
  | cons k0 v0 rest =>
    simp only [Table.set] at h
    by_cases hk : k0 = k
    · subst hk
      simp only [if_true] at h
      cases h with
      | here => exact .inl ⟨rfl, rfl⟩
      | there h => exact .inr (.there h)
    · simp only [hk, if_false] at h
      cases h with
      | here => exact .inr (.here _ _ _)
      | there h =>
        rcases has_set h with h | h
        · exact .inl h
        · exact .inr (.there h)

theorem has_del {t : Table} {k k' : Key} {w : Val} (h : Has (t.del k) k' w) : Has t k' w := by
  cases t with
  | nil => simp only [Table.del] at h; exact h
  | cons k0 v0 rest =>
    simp only [Table.del] at h
    by_cases hk : k0 = k
    · simp only [hk, if_true] at h
      exact .there h
    · simp only [hk, if_false] at h
      cases h with
      | here => exact .here _ _ _
      | there h => exact .there (has_del h)

theorem map_set {t : Table} (hm : Map t) (k : Key) (v : Val) (hv : ∀ s, v = .table s → Map s) : Map (t.set k v) := by
  induction hm with
  | nil => exact .cons (fun _ h => by cases h) hv .nil
  | @cons k0 v0 rest hno hsub hrest ihs ih =>
    simp only [Table.set]
    by_cases hk : k0 = k
    · subst hk
      simp only [if_true]
      exact .cons hno hv hrest
    · simp only [hk, if_false]
      refine .cons ?_ hsub ih
      intro w h
      rcases has_set h with ⟨h, _⟩ | h
      · exact hk h
      · exact hno _ h

theorem map_del {t : Table} (hm : Map t) (k : Key) : Map (t.del k) := by
  induction hm with
  | nil => exact .nil
  | @cons k0 v0 rest hno hsub hrest ihs ih =>
    simp only [Table.del]
    by_cases hk : k0 = k
    · simp only [hk, if_true]; exact hrest
    · simp only [hk, if_false]
      exact .cons (fun w h => hno _ (has_del h)) hsub ih

theorem get_set (t : Table) (k k' : Key) (v : Val) : (t.set k v).get k' = if k = k' then some v else t.get k' := by
  cases t with
  | nil => simp only [Table.set, Table.get]
  | cons k0 v0 rest =>
    simp only [Table.set]
    by_cases hk : k0 = k
    · subst hk
      by_cases hk' : k0 = k' <;> simp [Table.get, hk']
    · simp only [hk, if_false, Table.get, get_set rest k k' v]
      by_cases hk' : k0 = k'
      · subst hk'
        simp [Ne.symm hk]
      · simp [hk']

/-- What a merge leaves at one key. -/
def Pick (d s : Option Val) : Option Val :=
  match d, s with
  | none, s => s
  | some (.table dt), some (.table st) => some (.table (mergeTables true dt st))
  | some d, _ => some d

theorem get_merge (dst src : Table) (hm : Map src) (k : Key) :
    (mergeTables true dst src).get k = Pick (dst.get k) (src.get k) := by
  match src with
  | .nil => simp only [mergeTables, Table.get, Pick]; split <;> simp_all
  | .cons key val rest =>
    cases hm with
    | cons hno hsub hrest =>
      have hr : ∀ w, rest.get key ≠ some w := fun w h => hno w ((has_get hrest).mpr h)
      have hr0 : rest.get key = none := by
        cases h : rest.get key with
        | none => rfl
        | some w => exact absurd h (hr w)
      simp only [mergeTables]
      cases hd : dst.get key with
      | none =>
        simp only
        rw [get_merge _ rest hrest, get_set]
        by_cases hk : key = k
        · subst hk
          simp only [if_true, hr0, hd, Table.get, Pick]
        · simp only [hk, if_false, Table.get]
      | some d =>
        cases d with
        | null =>
          simp only [if_true]
          rw [get_merge _ rest hrest]
          by_cases hk : key = k
          · subst hk; simp [hd, hr0, Table.get, Pick]
          · simp [hk, Table.get]
        | other n =>
          simp only
          rw [get_merge _ rest hrest]
          by_cases hk : key = k
          · subst hk; simp [hd, hr0, Table.get, Pick]
          · simp [hk, Table.get]
        | table dt =>
          cases val with
          | null =>
            simp only
            rw [get_merge _ rest hrest]
            by_cases hk : key = k
            · subst hk; simp [hd, hr0, Table.get, Pick]
            · simp [hk, Table.get]
          | other n =>
            simp only
            rw [get_merge _ rest hrest]
            by_cases hk : key = k
            · subst hk; simp [hd, hr0, Table.get, Pick]
            · simp [hk, Table.get]
          | table st =>
            simp only
            rw [get_merge _ rest hrest, get_set]
            by_cases hk : key = k
            · subst hk; simp [hd, hr0, Table.get, Pick]
            · simp [hk, Table.get]

theorem map_merge (b : Bool) (dst src : Table) (hd : Map dst) (hs : Map src) : Map (mergeTables b dst src) := by
  match src with
  | .nil => simpa only [mergeTables] using hd
  | .cons key val rest =>
    cases hs with
    | cons hno hsub hrest =>
      simp only [mergeTables]
      cases hg : dst.get key with
      | none => exact map_merge b _ rest (map_set hd _ _ hsub) hrest
      | some d =>
        cases d with
        | null =>
          simp only
          split
          · exact map_merge b _ rest hd hrest
          · exact map_merge b _ rest (map_del hd _) hrest
        | other n => exact map_merge b _ rest hd hrest
        | table dt =>
          cases val with
          | null => exact map_merge b _ rest hd hrest
          | other n => exact map_merge b _ rest hd hrest
          | table st =>
            refine map_merge b _ rest (map_set hd _ _ ?_) hrest
            rintro s h
            cases h
            exact map_merge b dt st (has_sub hd ((has_get hd).mpr hg)) (hsub st rfl)

theorem mergeLoop_eq (v : Table) : ∀ inp : Table, mergeLoop v inp = mergeTables true v inp := by
  intro inp
  match inp with
  | .nil => simp only [mergeLoop, mergeTables]
  | .cons key val rest =>
    simp only [mergeLoop, mergeTables]
    cases hg : v.get key with
    | none => exact mergeLoop_eq _ rest
    | some d =>
      cases d with
      | null => simpa using mergeLoop_eq _ rest
      | other n => exact mergeLoop_eq _ rest
      | table dt => cases val <;> exact mergeLoop_eq _ rest

/-- Reading a value at a path. -/
def AtVal (v : Val) (p : List Key) (c : Content) : Prop :=
  match v with
  | .null => p = [] ∧ c = .null
  | .other n => p = [] ∧ c = .other n
  | .table s => At s p c

theorem at_cons {t : Table} (hm : Map t) {k : Key} {p : List Key} {c : Content} :
    At t (k :: p) c ↔ ∃ v, t.get k = some v ∧ AtVal v p c := by
  constructor
  · intro h
    cases h with
    | null h => exact ⟨_, (has_get hm).mp h, rfl, rfl⟩
    | other h => exact ⟨_, (has_get hm).mp h, rfl, rfl⟩
    | table h ha => exact ⟨_, (has_get hm).mp h, ha⟩
  · rintro ⟨v, hg, ha⟩
    have hh := (has_get hm).mpr hg
    cases v with
    | null => obtain ⟨rfl, rfl⟩ := ha; exact .null hh
    | other n => obtain ⟨rfl, rfl⟩ := ha; exact .other hh
    | table s => exact .table hh ha

theorem at_nil {t : Table} {c : Content} : At t [] c ↔ c = .table := by
  constructor
  · intro h; cases h; rfl
  · rintro rfl; exact .root t

theorem open_cons {t : Table} (hm : Map t) {k : Key} {p : List Key} :
    Open t (k :: p) ↔ match t.get k with
      | none => True
      | some (.table s) => Open s p
      | some _ => p = [] := by
  constructor
  · intro ho
    split
    · trivial
    · rename_i s hg
      intro q r c hp hr ha
      exact ho (k :: q) r c (by simp [hp]) hr ((at_cons hm).mpr ⟨_, hg, ha⟩)
    · rename_i v hnt hg
      cases p with
      | nil => rfl
      | cons k' p' =>
        exfalso
        cases v with
        | null => have := ho [k] (k' :: p') .null rfl (by simp) ((at_cons hm).mpr ⟨_, hg, rfl, rfl⟩); cases this
        | other n => have := ho [k] (k' :: p') (.other n) rfl (by simp) ((at_cons hm).mpr ⟨_, hg, rfl, rfl⟩); cases this
        | table s => exact hnt s rfl
  · intro h q r c hp hr ha
    cases q with
    | nil => exact at_nil.mp ha
    | cons k' q =>
      simp only [List.cons_append, List.cons.injEq] at hp
      obtain ⟨rfl, hp⟩ := hp
      obtain ⟨v, hg, ha⟩ := (at_cons hm).mp ha
      rw [hg] at h
      cases v with
      | null =>
        simp only at h
        subst h
        obtain ⟨rfl, rfl⟩ := ha
        exact absurd hp.symm (by simpa using hr)
      | other n =>
        simp only at h
        subst h
        obtain ⟨rfl, rfl⟩ := ha
        exact absurd hp.symm (by simpa using hr)
      | table s => exact h q r c hp hr ha

theorem at_merge (p : List Key) (dst src : Table) (hd : Map dst) (hs : Map src) (c : Content) :
    At (mergeTables true dst src) p c ↔ Merged src dst p c := by
  induction p generalizing dst src with
  | nil =>
    unfold Merged
    simp only [at_nil]
    constructor
    · exact .inl
    · rintro (h | ⟨h, -⟩) <;> exact h
  | cons k p ih =>
    have hr := map_merge true dst src hd hs
    unfold Merged
    rw [at_cons hr, at_cons hd, at_cons hs, open_cons hd, get_merge dst src hs]
    simp only [at_cons hd]
    cases hgd : dst.get k with
    | none => simp [Pick]
    | some d =>
      cases hgs : src.get k with
      | none => cases d <;> simp [Pick]
      | some s =>
        cases d with
        | null =>
          simp only [Pick, Option.some.injEq, exists_eq_left', AtVal]
          constructor
          · exact .inl
          · rintro (h | ⟨-, h1, h2⟩)
            · exact h
            · exact absurd ⟨h2, rfl⟩ (h1 _)
        | other n =>
          simp only [Pick, Option.some.injEq, exists_eq_left', AtVal]
          constructor
          · exact .inl
          · rintro (h | ⟨-, h1, h2⟩)
            · exact h
            · exact absurd ⟨h2, rfl⟩ (h1 _)
        | table dt =>
          have hdt : Map dt := has_sub hd ((has_get hd).mpr hgd)
          cases s with
          | null =>
            simp only [Pick, Option.some.injEq, exists_eq_left', AtVal]
            constructor
            · exact .inl
            · rintro (h | ⟨⟨rfl, rfl⟩, h1, -⟩)
              · exact h
              · exact absurd (.root dt) (h1 _)
          | other n =>
            simp only [Pick, Option.some.injEq, exists_eq_left', AtVal]
            constructor
            · exact .inl
            · rintro (h | ⟨⟨rfl, rfl⟩, h1, -⟩)
              · exact h
              · exact absurd (.root dt) (h1 _)
          | table st =>
            have hst : Map st := has_sub hs ((has_get hs).mpr hgs)
            simp only [Pick, Option.some.injEq, exists_eq_left', AtVal]
            exact ih dt st hdt hst

theorem at_fun {t : Table} (hm : Map t) {p : List Key} {c c' : Content} (h : At t p c) (h' : At t p c') : c = c' := by
  induction p generalizing t with
  | nil => rw [at_nil.mp h, at_nil.mp h']
  | cons k p ih =>
    obtain ⟨v, hg, ha⟩ := (at_cons hm).mp h
    obtain ⟨v', hg', ha'⟩ := (at_cons hm).mp h'
    rw [hg] at hg'
    cases hg'
    cases v with
    | null => rw [ha.2, ha'.2]
    | other n => rw [ha.2, ha'.2]
    | table s => exact ih (has_sub hm ((has_get hm).mpr hg)) ha ha'

theorem at_open {t : Table} (hm : Map t) {p : List Key} {c : Content} (h : At t p c) : Open t p := by
  induction p generalizing t with
  | nil =>
    intro q r c' hp hr ha
    simp at hp
    exact absurd hp.2 hr
  | cons k p ih =>
    rw [open_cons hm]
    obtain ⟨v, hg, ha⟩ := (at_cons hm).mp h
    rw [hg]
    cases v with
    | null => exact ha.1
    | other n => exact ha.1
    | table s => exact ih (has_sub hm ((has_get hm).mpr hg)) ha

end Verif.GoOverride
