import Verif.DemoDb.Lemmas
/-
C116: the database of the demo is a list of persons, but for the removal of a record.
-/
namespace Verif.DemoDb
open Verif Verif.Heap Verif.DemoDb.Spec

variable {base : Nat → Bool}

/-- `db_delete` releases every block of the database and no other. -/
theorem C116_delete {d : Db} {L : List Person} (hd : Holds d L) {h : Heap} (o : Owns base h (owned d)) :
    ∃ h', dbDelete (some d) h = .ok h' ∧ ∀ x, h'.live x = base x := by
  have key : ∀ (n i : Nat) (h : Heap) (rest : List Nat), i + n = d.count → Owns base h (((d.data.take d.count).drop i).flatMap Cell.blocks ++ rest) →
      ∃ h', freeNames d n i h = .ok h' ∧ Owns base h' rest := by
    intro n
    induction n with
    | zero =>
      intro i h rest hi o
      refine ⟨h, rfl, ?_⟩
      rw [List.drop_eq_nil_of_le (by rw [List.length_take]; omega)] at o
      exact o
    | succ n ih =>
      intro i h rest hi o
      have hw := written hd
      have hl : i < L.length := by have := hd.count; omega
      obtain ⟨c, e, hc, his⟩ := read_at hd (List.getElem?_eq_getElem hl)
      have hcons : (d.data.take d.count).drop i = c :: (d.data.take d.count).drop (i + 1) := by
        rw [List.drop_eq_getElem_cons (by rw [List.length_take]; omega)]
        congr 1
        rw [List.getElem_take]
        exact (List.getElem?_eq_some_iff.1 hc).2
      rw [hcons, List.flatMap_cons, List.append_assoc] at o
      obtain ⟨h1, h2, e1, e2, o2, _⟩ := free_cell his o
      obtain ⟨h3, e3, o3⟩ := ih (i + 1) h2 rest (by omega) o2
      exact ⟨h3, by simp [freeNames, e, e1, e2, e3], o3⟩
  unfold owned at o
  obtain ⟨h1, e1, o1⟩ := key d.count 0 h [d.block] (by omega) (o.perm (by rw [List.drop_zero]; perm))
  obtain ⟨h2, e2, o2, _⟩ := o1.free
  refine ⟨h2, by simp [dbDelete, e1, e2], fun x => ?_⟩
  rw [o2.live]; simp

/-- `db_append` adds the person, with copies of the names, after those there are; or memory runs out,
and the database holds what it held, and no block has been lost.  The return code tells which. -/
theorem C116_append {d : Db} {L : List Person} (hd : Holds d L) {h : Heap} (o : Owns base h (owned d)) (p : Person) (hlt : L.length + 2 < 2 ^ 31) :
    ∃ c d' h', append (some d) (some p) h = .ok (c, some d', h') ∧ h'.fails = h.fails ∧ Owns base h' (owned d') ∧
      ((c = 0 ∧ Holds d' (L ++ [p])) ∨ (c = -12 ∧ Holds d' L ∧ ∃ k, h.fails k = true)) := by
  have hw := written hd
  have hcount := hd.count
  have hnot : ¬ (d.count + 2 ≥ 2 ^ 31) := by omega
  rcases e : h.alloc with ⟨_ | b, h1⟩
  · obtain ⟨o1, f1, k⟩ := o.alloc_none e
    exact ⟨-12, d, h1, by simp only [append, if_neg hnot, realloc, e, Outcome.bind_ok]; rfl, f1, o1, .inr ⟨rfl, hd, k⟩⟩
  obtain ⟨o1, f1⟩ := o.alloc_some e
  obtain ⟨h2, e2, o2, f2⟩ := (o1.perm (b := d.block :: b :: (d.data.take d.count).flatMap Cell.blocks) (by unfold owned; perm)).free
  -- what is written to the record at the end
  have hwr : ∀ (data : List Cell) (c : Cell), d.count ≤ data.length → data.length ≤ d.count + 2 →
      ∃ data', (Db.write ⟨b, d.count + 2, d.count, data⟩ d.count c) = .ok ⟨b, d.count + 2, d.count, data'⟩ ∧ data'.take d.count = data.take d.count ∧
        data'[d.count]? = some c ∧ d.count ≤ data'.length ∧ data'.length ≤ d.count + 2 := by
    intro data c h1 h2
    refine ⟨if d.count = data.length then data ++ [c] else data.set d.count c, ?_, ?_, ?_, ?_, ?_⟩
    · unfold Db.write
      rw [if_pos ⟨by simp, h1⟩]
    · split
      · rw [List.take_append_of_le_length (by omega)]
      · rw [List.take_set_of_le (by omega)]
    · split
      · next he => rw [he]; simp
      · rw [List.getElem?_set_self (by omega)]
    · split <;> simp <;> omega
    · split <;> simp <;> omega
  -- the records there were
  have hold : ∀ data : List Cell, data.take d.count = d.data.take d.count → ∀ (i : Nat) q, L[i]? = some q → ∃ c, data[i]? = some c ∧ Is q c := by
    intro data he i q hi
    have hil := (List.getElem?_eq_some_iff.1 hi).1
    obtain ⟨c, h1, h2⟩ := hd.records i q hi
    refine ⟨c, ?_, h2⟩
    rw [← List.getElem?_take_of_lt (i := i) (j := d.count) (l := data) (by omega), he, List.getElem?_take_of_lt (by omega), h1]
  have h0 : (d.data.take (d.count + 2)).take d.count = d.data.take d.count := by
    rw [List.take_take]; congr 1; omega
  obtain ⟨data1, w1, t1, g1, l1, m1⟩ := hwr (d.data.take (d.count + 2)) { first := given p.first, last := given p.last, age := p.age, status := p.status }
    (by rw [List.length_take]; omega) (by rw [List.length_take]; omega)
  have t1 := t1.trans h0
  rcases dup_name p.first o2 with ⟨q1, h3, e3, n1, o3, f3⟩ | ⟨h3, e3, o3, f3, k⟩
  rotate_left
  · refine ⟨-12, ⟨b, d.count + 2, d.count, data1⟩, h3, ?_, f3.trans (f2.trans f1), ?_, .inr ⟨rfl, ⟨hd.count, m1, hold _ t1⟩, ?_⟩⟩
    · simp only [append, if_neg hnot, realloc, e, e2, Outcome.bind_ok, Outcome.pure_eq, w1, e3]
    · unfold owned
      simp only [t1]
      exact o3
    · obtain ⟨j, hj⟩ := k
      exact ⟨j, by rw [← f1, ← f2]; exact hj⟩
  obtain ⟨data2, w2, t2, g2, l2, m2⟩ := hwr data1 { first := q1, last := given p.last, age := p.age, status := p.status } l1 m1
  have t2 := t2.trans t1
  rcases dup_name p.last o3 with ⟨q2, h4, e4, n2, o4, f4⟩ | ⟨h4, e4, o4, f4, k⟩
  rotate_left
  · obtain ⟨h5, e5, o5, f5⟩ := free_name n1 o4
    refine ⟨-12, ⟨b, d.count + 2, d.count, data2⟩, h5, ?_, f5.trans (f4.trans (f3.trans (f2.trans f1))), ?_, .inr ⟨rfl, ⟨hd.count, m2, hold _ t2⟩, ?_⟩⟩
    · simp only [append, if_neg hnot, realloc, e, e2, Outcome.bind_ok, Outcome.pure_eq, w1, e3, w2, e4, e5]
    · unfold owned
      simp only [t2]
      exact o5
    · obtain ⟨j, hj⟩ := k
      exact ⟨j, by rw [← f1, ← f2, ← f3]; exact hj⟩
  obtain ⟨data3, w3, t3, g3, l3, m3⟩ := hwr data2 { first := q1, last := q2, age := p.age, status := p.status } l2 m2
  have t3 := t3.trans t2
  refine ⟨0, ⟨b, d.count + 2, d.count + 1, data3⟩, h4, ?_, f4.trans (f3.trans (f2.trans f1)), ?_, .inl ⟨rfl, ⟨?_, m3, ?_⟩⟩⟩
  · simp only [append, if_neg hnot, realloc, e, e2, Outcome.bind_ok, Outcome.pure_eq, w1, e3, w2, e4, w3]
  · unfold owned
    have : data3.take (d.count + 1) = data3.take d.count ++ [{ first := q1, last := q2, age := p.age, status := p.status }] := by
      rw [List.take_add_one, g3]; rfl
    simp only [this, t3, List.flatMap_append, List.flatMap_cons, List.flatMap_nil, List.append_nil]
    exact o4.perm (by unfold Cell.blocks; perm)
  · simp [hd.count]
  · intro i q hi
    rcases Nat.lt_or_ge i L.length with hl | hl
    · rw [List.getElem?_append_left hl] at hi
      exact hold _ t3 i q hi
    · rw [List.getElem?_append_right hl] at hi
      have : i - L.length = 0 ∧ q = p := by
        cases hj : i - L.length with
        | zero => rw [hj] at hi; exact ⟨rfl, (Option.some.inj hi).symm⟩
        | succ n => rw [hj] at hi; cases hi
      obtain ⟨h1, rfl⟩ := this
      refine ⟨{ first := q1, last := q2, age := q.age, status := q.status }, ?_, ⟨n1, n2, rfl, rfl⟩⟩
      rw [show i = d.count by omega]
      exact g3

/-- `db_delete_record` refuses numbers of records that there are not. -/
theorem C116_outside {d : Db} {L : List Person} (hd : Holds d L) (h : Heap) (i : Int) (hi : i < 0 ∨ i ≥ L.length) :
    deleteRecord (some d) i h = .ok (-22, some d, h) := by
  unfold deleteRecord
  dsimp only
  rw [if_pos (by rw [hd.count]; exact hi)]

/-- `db_delete_record` removes the record and releases its names.
Partial: of the last record or the one before it; else it is undefined (`C116_remove_false`). -/
theorem C116_remove_partial {d : Db} {L : List Person} (hd : Holds d L) {h : Heap} (o : Owns base h (owned d)) (i : Nat) (hi : i < L.length) (h2 : L.length ≤ i + 2) :
    ∃ d' h', deleteRecord (some d) i h = .ok (0, some d', h') ∧ h'.fails = h.fails ∧ Owns base h' (owned d') ∧ Holds d' (L.eraseIdx i) := by
  have hw := written hd
  have hcount := hd.count
  obtain ⟨c, e, hc, his⟩ := read_at hd (List.getElem?_eq_getElem hi)
  have hsplit : ∀ j, j < d.count → ∀ c', d.data[j]? = some c' → d.data.take (j + 1) = d.data.take j ++ [c'] := by
    intro j _ c' hj
    rw [List.take_add_one, hj]; rfl
  rcases Nat.lt_or_ge (i + 1) L.length with h1 | h1
  · -- the record before the last
    have hi1 : i + 1 < L.length := h1
    obtain ⟨c', e', hc', his'⟩ := read_at hd (List.getElem?_eq_getElem hi1)
    have hn : d.count = i + 1 + 1 := by omega
    have ho : owned d = d.block :: ((d.data.take i).flatMap Cell.blocks ++ Cell.blocks c ++ Cell.blocks c') := by
      unfold owned
      rw [hn, hsplit (i + 1) (by omega) c' hc', hsplit i (by omega) c hc]
      simp [List.flatMap_append]
    rw [ho] at o
    obtain ⟨k1, k2, f1, f2, o2, ff⟩ := free_cell his (o.perm (b := Cell.blocks c ++ (d.block :: ((d.data.take i).flatMap Cell.blocks ++ Cell.blocks c'))) (by perm))
    have hwr : d.write i c' = .ok { d with data := d.data.set i c' } := by
      unfold Db.write
      have := hd.room
      rw [if_pos (by omega), if_neg (by omega)]
    refine ⟨{ d with data := d.data.set i c', count := d.count - 1 }, k2, ?_, ff, ?_, ?_⟩
    · unfold deleteRecord
      dsimp only
      rw [if_neg (by omega)]
      simp only [Int.toNat_natCast, e, Outcome.bind_ok, f1, f2]
      rw [if_pos (by omega), show d.count - 1 - i = 1 by omega]
      simp only [moveDown, e', Outcome.bind_ok, hwr]
      rfl
    · unfold owned
      simp only [show d.count - 1 = i + 1 by omega]
      rw [List.take_add_one, List.take_set_of_le (by omega), List.getElem?_set_self (by omega)]
      simpa [List.flatMap_append] using o2
    · refine ⟨?_, by simpa using hd.room, ?_⟩
      · simp only [List.length_eraseIdx]
        rw [if_pos hi, hcount]
      · intro j q hj
        have hjl := (List.getElem?_eq_some_iff.1 hj).1
        rw [List.length_eraseIdx, if_pos hi] at hjl
        rcases Nat.lt_or_ge j i with hji | hji
        · rw [List.getElem?_eraseIdx_of_lt hji] at hj
          obtain ⟨x, g1, g2⟩ := hd.records j q hj
          exact ⟨x, by rw [List.getElem?_set_ne (by omega)]; exact g1, g2⟩
        · obtain rfl : j = i := by omega
          rw [List.getElem?_eraseIdx_of_ge (by omega)] at hj
          rw [List.getElem?_eq_getElem hi1] at hj
          obtain rfl := Option.some.inj hj
          exact ⟨c', by rw [List.getElem?_set_self (by omega)], his'⟩
  · -- the last record
    have hn : d.count = i + 1 := by omega
    have ho : owned d = d.block :: ((d.data.take i).flatMap Cell.blocks ++ Cell.blocks c) := by
      unfold owned
      rw [hn, hsplit i (by omega) c hc]
      simp [List.flatMap_append]
    rw [ho] at o
    obtain ⟨k1, k2, f1, f2, o2, ff⟩ := free_cell his (o.perm (b := Cell.blocks c ++ (d.block :: (d.data.take i).flatMap Cell.blocks)) (by perm))
    refine ⟨{ d with count := d.count - 1 }, k2, ?_, ff, ?_, ?_⟩
    · unfold deleteRecord
      dsimp only
      rw [if_neg (by omega)]
      simp only [Int.toNat_natCast, e, Outcome.bind_ok, f1, f2]
      rw [if_neg (by omega)]
      rfl
    · unfold owned
      simp only [show d.count - 1 = i by omega]
      exact o2
    · refine ⟨?_, hd.room, ?_⟩
      · simp only [List.length_eraseIdx]
        rw [if_pos hi, hcount]
      · intro j q hj
        have hjl := (List.getElem?_eq_some_iff.1 hj).1
        rw [List.length_eraseIdx, if_pos hi] at hjl
        rw [List.getElem?_eraseIdx_of_lt (by omega)] at hj
        exact hd.records j q hj

/-- C116 is false of `db_delete_record` in general: with two records or more behind the one that is
removed, `memcpy` is used on places that overlap. -/
theorem C116_remove_false {d : Db} {L : List Person} (hd : Holds d L) {h : Heap} (o : Owns base h (owned d)) (i : Nat) (hi : i + 2 < L.length) :
    deleteRecord (some d) i h = .ub := by
  have hw := written hd
  have hcount := hd.count
  obtain ⟨c, e, hc, his⟩ := read_at hd (List.getElem?_eq_getElem (l := L) (i := i) (by omega))
  have ho : (owned d).Perm (Cell.blocks c ++ (d.block :: ((d.data.take i).flatMap Cell.blocks ++ ((d.data.take d.count).drop (i + 1)).flatMap Cell.blocks))) := by
    unfold owned
    have : d.data.take d.count = d.data.take i ++ c :: (d.data.take d.count).drop (i + 1) := by
      have h1 : (d.data.take d.count).drop i = c :: (d.data.take d.count).drop (i + 1) := by
        rw [List.drop_eq_getElem_cons (by rw [List.length_take]; omega)]
        congr 1
        rw [List.getElem_take]
        exact (List.getElem?_eq_some_iff.1 hc).2
      rw [← h1]
      conv => lhs; rw [← List.take_append_drop i (d.data.take d.count)]
      rw [List.take_take, Nat.min_eq_left (by omega)]
    generalize hr : (d.data.take d.count).drop (i + 1) = r at *
    rw [this, List.flatMap_append, List.flatMap_cons]
    perm
  obtain ⟨k1, k2, f1, f2, _⟩ := free_cell his (o.perm ho)
  unfold deleteRecord
  dsimp only
  rw [if_neg (by omega)]
  simp only [Int.toNat_natCast, e, Outcome.bind_ok, f1, f2]
  rw [if_pos (by omega)]
  obtain ⟨n, hn⟩ : ∃ n, d.count - 1 - i = n + 2 := ⟨d.count - 1 - i - 2, by omega⟩
  rw [hn]
  rfl

end Verif.DemoDb
