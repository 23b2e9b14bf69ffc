/-
Property C106: the ranges of the neighbours of a process.
-/
import Verif.Model.Retrieve
import Verif.Props.Handshake

namespace Ovk.Retr
open Shake (natLt)
variable {n : Nat}

/-! ### Specification -/
namespace Spec

/-- `m` lists the ranges of exactly the ranks in `l`, each once, by increasing rank. -/
def Lists (info : Fin n → Info) (l : List (Fin n)) (m : List (Nat × Info)) : Prop :=
  (m.map Prod.fst).Pairwise (· < ·) ∧ ∀ k x, (k, x) ∈ m ↔ ∃ q ∈ l, k = q.val ∧ x = info q

/-- What process `p` has returned. -/
def Returned (s : State n) (p : Fin n) (m : List (Nat × Info)) : Prop :=
  ∃ x, s.proc p = some x ∧ x.ended = true ∧ m = x.map.entries

end Spec

theorem unpack_pack (x : Info) : unpack (pack x) = x := by
  obtain ⟨⟨a, b⟩, ⟨c, d⟩⟩ := x
  have e : ∀ (f g : Tup 3), f 0 = g 0 → f 1 = g 1 → f 2 = g 2 → f = g := by
    intro f g h0 h1 h2
    funext i
    fin_cases i
    exacts [h0, h1, h2]
  unfold unpack
  congr
  all_goals exact e _ _ rfl rfl rfl

/-! ### The invariant -/

structure Inv (w : World n) (s : State n) : Prop where
  shake : Shake.Reach (Shake.start w.ranks) s.shake
  res : ∀ p x, s.proc p = some x → Shake.result s.shake p = some x.sends
  wf : ∀ p x, s.proc p = some x → x.map.WF natLt
  map : ∀ p x, s.proc p = some x → ∀ k v, (k, v) ∈ x.map.entries ↔
    ∃ i ∈ x.gotten, ∃ q, (w.ranks p)[i]? = some q ∧ k = q.val ∧ v = w.info q
  got : ∀ p x, s.proc p = some x → x.gotten.Nodup ∧ ∀ i ∈ x.gotten, i < (w.ranks p).length
  sent : ∀ p x, s.proc p = some x → x.sent.Nodup ∧ ∀ j ∈ x.sent, j < x.sends.length
  /-- a rank sends once -/
  first : ∀ p x, s.proc p = some x → ∀ i ∈ x.gotten, ∀ q, (w.ranks p)[i]? = some q →
    q ∉ (w.ranks p).take i
  ended : ∀ p x, s.proc p = some x → x.ended = true → (∀ i < (w.ranks p).length, i ∈ x.gotten) ∧
    ∀ j < x.sends.length, j ∈ x.sent

theorem step_other {p : Fin n} {s t : Shake.State n} (h : Shake.Step p s t) : ∀ q, q ≠ p → t.procs q = s.procs q := by
  intro q hq
  cases h <;> simp [hq]

theorem step_notDone {p : Fin n} {s t : Shake.State n} (h : Shake.Step p s t) : (s.procs p).pc ≠ .done := by
  cases h <;> simp_all

theorem result_eq {s t : Shake.State n} {p : Fin n} (h : t.procs p = s.procs p) :
    Shake.result t p = Shake.result s p := by
  unfold Shake.result
  rw [h]

theorem Inv.answer {w : World n} {s : State n} (I : Inv w s) {p : Fin n} {x} (h : s.proc p = some x) :
    Shake.Spec.IsAnswer w.ranks p x.sends :=
  Shake.C28_answer w.ranks s.shake I.shake p _ (I.res p x h)

theorem Inv.sends_nodup {w : World n} {s : State n} (I : Inv w s) {p : Fin n} {x} (h : s.proc p = some x) :
    x.sends.Nodup := (I.answer h).1.imp fun h => by omega

theorem sto : IsSTO natLt := by
  refine ⟨?_, ?_, ?_⟩ <;> intros <;> simp_all [natLt] <;> omega

theorem inv_start (w : World n) : Inv w (start w) := by
  refine ⟨.refl, ?_, ?_, ?_, ?_, ?_, ?_, ?_⟩ <;> intro p x h <;> cases h

theorem inv_set {w : World n} {s : State n} (I : Inv w s) {p : Fin n} {x : Proc}
    (h1 : Shake.result s.shake p = some x.sends) (h2 : x.map.WF natLt)
    (h3 : ∀ k v, (k, v) ∈ x.map.entries ↔
      ∃ i ∈ x.gotten, ∃ q, (w.ranks p)[i]? = some q ∧ k = q.val ∧ v = w.info q)
    (h4 : x.gotten.Nodup ∧ ∀ i ∈ x.gotten, i < (w.ranks p).length)
    (h5 : x.sent.Nodup ∧ ∀ j ∈ x.sent, j < x.sends.length)
    (h6 : ∀ i ∈ x.gotten, ∀ q, (w.ranks p)[i]? = some q → q ∉ (w.ranks p).take i)
    (h7 : x.ended = true → (∀ i < (w.ranks p).length, i ∈ x.gotten) ∧ ∀ j < x.sends.length, j ∈ x.sent) :
    Inv w (s.setProc p x) := by
  have key : ∀ q y, (s.setProc p x).proc q = some y → (q = p ∧ y = x) ∨ s.proc q = some y := by
    intro q y h
    simp only [State.setProc, Function.update_apply] at h
    split at h
    · cases h
      exact Or.inl ⟨by assumption, rfl⟩
    · exact Or.inr h
  refine ⟨I.shake, ?_, ?_, ?_, ?_, ?_, ?_, ?_⟩ <;> intro q y h <;> rcases key q y h with ⟨rfl, rfl⟩ | h
  exacts [h1, I.res q y h, h2, I.wf q y h, h3, I.map q y h, h4, I.got q y h, h5, I.sent q y h, h6, I.first q y h,
    h7, I.ended q y h]

theorem store_spec {x : Proc} (h : x.map.WF natLt) (i : Nat) (q : Fin n) (v : Info) :
    (x.store i q (pack v)).map.WF natLt ∧
    ∀ k y, (k, y) ∈ (x.store i q (pack v)).map.entries ↔ (k = q.val ∧ y = v) ∨ (k ≠ q.val ∧ (k, y) ∈ x.map.entries) := by
  have f := omap_fetch_spec sto h q.val ⟨⟨fun _ => 0, fun _ => 0⟩, ⟨fun _ => 0, fun _ => 0⟩⟩
  have hex : ∃ v, (q.val, v) ∈ (x.map.fetch natLt q.val
      ⟨⟨fun _ => 0, fun _ => 0⟩, ⟨fun _ => 0, fun _ => 0⟩⟩).entries := by
    by_cases hc : ∃ v, (q.val, v) ∈ x.map.entries
    · obtain ⟨v, hv⟩ := hc
      exact ⟨v, (f.2 _ _).2 (Or.inl hv)⟩
    · exact ⟨_, (f.2 _ _).2 (Or.inr ⟨rfl, rfl, fun w hw => hc ⟨w, hw⟩⟩)⟩
  have g := omap_modify_spec sto f.1 q.val (fun _ => unpack (pack v)) hex
  refine ⟨g.1, fun k y => ?_⟩
  show (k, y) ∈ OMap.entries (OMap.modify natLt _ _ _) ↔ _
  rw [g.2 k y, unpack_pack]
  constructor
  · rintro (⟨h1, h2⟩ | ⟨h1, v', _, h3⟩)
    · rcases (f.2 _ _).1 h2 with h4 | ⟨h4, _⟩
      · exact Or.inr ⟨h1, h4⟩
      · exact (h1 h4).elim
    · exact Or.inl ⟨h1, h3⟩
  · rintro (⟨h1, h2⟩ | ⟨h1, h2⟩)
    · obtain ⟨v', hv'⟩ := hex
      exact Or.inr ⟨h1, v', hv', h2⟩
    · exact Or.inl ⟨h1, (f.2 _ _).2 (Or.inl h2)⟩

theorem Inv.step {w : World n} {s t : State n} {p : Fin n} (I : Inv w s) (h : Step w p s t) : Inv w t := by
  cases h with
  | @shake t hp hs =>
    refine ⟨.step p I.shake hs, ?_, I.wf, I.map, I.got, I.sent, I.first, I.ended⟩
    intro q x hx
    have hx : s.proc q = some x := hx
    have hq : q ≠ p := by
      rintro rfl
      rw [hp] at hx
      cases hx
    show Shake.result t q = _
    rw [result_eq (step_other hs q hq)]
    exact I.res q x hx
  | @post l hp hr =>
    refine inv_set I hr ⟨rfl, List.Pairwise.nil⟩ ?_ ⟨List.nodup_nil, fun i hi => by cases hi⟩
      ⟨List.nodup_nil, fun i hi => by cases hi⟩ (fun i hi => by cases hi) (fun h => by cases h)
    intro k v
    simp [posted]
  | @recv x i q hx he hi hq hc =>
    have hf : q ∉ (w.ranks p).take i := by
      unfold State.sentTo at hc
      split at hc
      · omega
      · rename_i y hy
        have := (I.sends_nodup hy)
        have : y.sends.count p.val ≤ 1 := List.nodup_iff_count_le_one.1 this _
        rw [← List.count_eq_zero]
        omega
    have hil : i < (w.ranks p).length := by
      rw [List.getElem?_eq_some_iff] at hq
      exact hq.1
    have st := store_spec (I.wf p x hx) i q (w.info q)
    refine inv_set I (I.res p x hx) st.1 ?_ ⟨?_, ?_⟩ (I.sent p x hx) ?_ ?_
    · intro k v
      rw [st.2 k v, I.map p x hx]
      show _ ↔ ∃ j ∈ i :: x.gotten, _
      constructor
      · rintro (⟨h1, h2⟩ | ⟨_, j, hj, h2⟩)
        · exact ⟨i, List.mem_cons_self, q, hq, h1, h2⟩
        · exact ⟨j, List.mem_cons_of_mem _ hj, h2⟩
      · rintro ⟨j, hj, q', h1, h2, h3⟩
        by_cases hk : k = q.val
        · left
          have : q' = q := by
            apply Fin.ext
            omega
          exact ⟨hk, by rw [h3, this]⟩
        · right
          refine ⟨hk, ?_⟩
          rcases List.mem_cons.1 hj with rfl | hj
          · rw [hq] at h1
            cases h1
            exact (hk h2).elim
          · exact ⟨j, hj, q', h1, h2, h3⟩
    · show (i :: x.gotten).Nodup
      exact List.nodup_cons.2 ⟨hi, (I.got p x hx).1⟩
    · intro j hj
      rcases List.mem_cons.1 hj with rfl | hj
      · exact hil
      · exact (I.got p x hx).2 j hj
    · intro j hj q' hq'
      rcases List.mem_cons.1 hj with rfl | hj
      · rw [hq] at hq'
        cases hq'
        exact hf
      · exact I.first p x hx j hj q' hq'
    · intro h
      have h : x.ended = true := h
      rw [he] at h
      cases h
  | @send x j q hx he hj hq hc =>
    have hjl : j < x.sends.length := by
      rw [List.getElem?_eq_some_iff] at hq
      exact hq.1
    refine inv_set I (I.res p x hx) (I.wf p x hx) (I.map p x hx) (I.got p x hx) ⟨?_, ?_⟩ (I.first p x hx) ?_
    · show (j :: x.sent).Nodup
      exact List.nodup_cons.2 ⟨hj, (I.sent p x hx).1⟩
    · intro k hk
      rcases List.mem_cons.1 hk with rfl | hk
      · exact hjl
      · exact (I.sent p x hx).2 k hk
    · intro h
      have h : x.ended = true := h
      rw [he] at h
      cases h
  | @stop x hx he h1 h2 =>
    exact inv_set I (I.res p x hx) (I.wf p x hx) (I.map p x hx) (I.got p x hx) (I.sent p x hx) (I.first p x hx)
      (fun _ => ⟨h1, h2⟩)

theorem Inv.reach {w : World n} {s t : State n} (h : Reach w s t) : Inv w s → Inv w t := by
  induction h with
  | refl => exact id
  | step p _ h ih => exact fun I => (ih I).step h

theorem inv_reach {w : World n} {s : State n} (h : Reach w (start w) s) : Inv w s := Inv.reach h (inv_start w)

/-! ### Theorems -/

/-- **C106**: in every execution, a process that returns has the local and extended ranges of exactly the processes
that it asked for. -/
theorem C106_answer (w : World n) {s : State n} (h : Reach w (start w) s) {p : Fin n} {m : List (Nat × Info)}
    (hm : Spec.Returned s p m) : Spec.Lists w.info (w.ranks p) m := by
  have I := inv_reach h
  obtain ⟨x, hx, he, rfl⟩ := hm
  refine ⟨?_, ?_⟩
  · have := (I.wf p x hx).2
    rw [(I.wf p x hx).1] at this
    exact this.imp fun h => by simpa [natLt] using h
  · intro k v
    rw [I.map p x hx]
    constructor
    · rintro ⟨i, hi, q, h1, h2, h3⟩
      exact ⟨q, List.mem_of_getElem? h1, h2, h3⟩
    · rintro ⟨q, hq, h2, h3⟩
      obtain ⟨i, hi, h1⟩ := List.getElem_of_mem hq
      exact ⟨i, (I.ended p x hx he).1 i hi, q, by rw [List.getElem?_eq_getElem hi, h1], h2, h3⟩

/-- **C106**: a process that asks for the same process twice never returns: the handshake tells the other process
only once. -/
theorem C106_twice (w : World n) {s : State n} (h : Reach w (start w) s) {p : Fin n} (hd : ¬(w.ranks p).Nodup)
    (m : List (Nat × Info)) : ¬Spec.Returned s p m := by
  rintro ⟨x, hx, he, rfl⟩
  have I := inv_reach h
  apply hd
  rw [List.nodup_iff_injective_getElem]
  have key : ∀ i j : Nat, (hi : i < (w.ranks p).length) → (hj : j < (w.ranks p).length) → i < j →
      (w.ranks p)[i] ≠ (w.ranks p)[j] := by
    intro i j hi hj hij heq
    refine I.first p x hx j ((I.ended p x hx he).1 j hj) _ (List.getElem?_eq_getElem hj) ?_
    rw [← heq]
    rw [List.mem_take_iff_getElem]
    exact ⟨i, by omega, rfl⟩
  rintro ⟨i, hi⟩ ⟨j, hj⟩ heq
  have heq : (w.ranks p)[i] = (w.ranks p)[j] := heq
  rcases lt_trichotomy i j with h1 | h1 | h1
  · exact (key i j hi hj h1 heq).elim
  · exact Fin.ext h1
  · exact (key j i hj hi h1 heq.symm).elim

/-- How much is left to do for a process after the handshake. -/
def cost (w : World n) (s : State n) (p : Fin n) : Nat :=
  match s.proc p with
  | none => 2 + (w.ranks p).length + (s.shake.procs p).matched.length
  | some x => ((w.ranks p).length - x.gotten.length) + (x.sends.length - x.sent.length) + (if x.ended then 0 else 1)

def left (w : World n) (s : State n) : Nat := ∑ p, cost w s p

theorem room {k : Nat} {l : List Nat} (hn : l.Nodup) (hl : ∀ i ∈ l, i < k) {j : Nat} (hj : j < k) (h : j ∉ l) :
    l.length < k := by
  have h1 : (j :: l).Nodup := List.nodup_cons.2 ⟨h, hn⟩
  have h2 : (j :: l) ⊆ List.range k := by
    intro i hi
    rw [List.mem_range]
    rcases List.mem_cons.1 hi with rfl | hi
    · exact hj
    · exact hl i hi
  have := (List.subperm_of_subset h1 h2).length_le
  rw [List.length_cons, List.length_range] at this
  omega

theorem left_set {w : World n} {s : State n} {p : Fin n} {x : Proc}
    (h : cost w (s.setProc p x) p < cost w s p) : left w (s.setProc p x) < left w s := by
  refine Finset.sum_lt_sum (fun q _ => ?_) ⟨p, Finset.mem_univ p, h⟩
  by_cases hq : q = p
  · subst hq
    omega
  · refine le_of_eq ?_
    simp [cost, State.setProc, hq]

/-- **C106**: once all handshakes have returned, every step reduces what is left to do. -/
theorem C106_work (w : World n) {s t : State n} (h : Reach w (start w) s) (hd : Shake.Spec.AllDone s.shake)
    {p : Fin n} (hs : Step w p s t) : left w t < left w s := by
  have I := inv_reach h
  cases hs with
  | shake _ hs => exact (step_notDone hs (hd p)).elim
  | @post l hp hr =>
    apply left_set
    have : l = (s.shake.procs p).matched := by
      unfold Shake.result at hr
      rw [if_pos (hd p)] at hr
      cases hr
      rfl
    subst this
    simp [cost, State.setProc, hp, posted]
    omega
  | @recv x i q hx he hi hq hc =>
    apply left_set
    have hil : i < (w.ranks p).length := by
      rw [List.getElem?_eq_some_iff] at hq
      exact hq.1
    have := room (I.got p x hx).1 (I.got p x hx).2 hil hi
    simp only [cost, State.setProc, Function.update_self, hx, Proc.store, List.length_cons]
    omega
  | @send x j q hx he hj hq hc =>
    apply left_set
    have hjl : j < x.sends.length := by
      rw [List.getElem?_eq_some_iff] at hq
      exact hq.1
    have := room (I.sent p x hx).1 (I.sent p x hx).2 hjl hj
    simp only [cost, State.setProc, Function.update_self, hx, List.length_cons]
    omega
  | @stop x hx he h1 h2 =>
    apply left_set
    simp [cost, State.setProc, hx, he]

theorem Reach.trans {w : World n} {s t u : State n} (h1 : Reach w s t) (h2 : Reach w t u) : Reach w s u := by
  induction h2 with
  | refl => exact h1
  | step p _ h ih => exact .step p ih h

/-- Once all handshakes have returned and not every process has, one of them can go on. -/
theorem progress {w : World n} (hn : ∀ p, (w.ranks p).Nodup) {s : State n} (I : Inv w s)
    (hd : Shake.Spec.AllDone s.shake) {p : Fin n} (hp : ∀ m, ¬Spec.Returned s p m) : ∃ q t, Step w q s t := by
  by_cases hall : ∃ q, s.proc q = none
  · obtain ⟨q, hq⟩ := hall
    exact ⟨q, _, .post hq (by unfold Shake.result; rw [if_pos (hd q)])⟩
  have hall : ∀ q, ∃ x, s.proc q = some x := fun q =>
    Option.ne_none_iff_exists'.1 fun h => hall ⟨q, h⟩
  obtain ⟨x, hx⟩ := hall p
  have he : x.ended = false := by
    by_contra hc
    exact hp _ ⟨x, hx, by simpa using hc, rfl⟩
  by_cases h1 : ∀ i < (w.ranks p).length, i ∈ x.gotten
  · by_cases h2 : ∀ j < x.sends.length, j ∈ x.sent
    · exact ⟨p, _, .stop hx he h1 h2⟩
    · simp only [not_forall] at h2
      obtain ⟨j, hj, hjs⟩ := h2
      obtain ⟨q, hq, hpq⟩ := ((I.answer hx).2 (x.sends[j])).1 (List.getElem_mem hj)
      refine ⟨p, _, .send (q := q) hx he hjs (by rw [List.getElem?_eq_getElem hj, hq]) (Or.inr ?_)⟩
      obtain ⟨y, hy⟩ := hall q
      have e1 : (x.sends.take j).count q.val = 0 := by
        rw [List.count_eq_zero, ← hq]
        intro hm
        obtain ⟨i, hi, hij⟩ := List.mem_take_iff_getElem.1 hm
        have := (List.Nodup.getElem_inj_iff (I.sends_nodup hx)).1 hij
        omega
      have e2 : 0 < (w.ranks q).count p := List.count_pos_iff.2 hpq
      simp only [State.awaited, hy]
      omega
  · simp only [not_forall] at h1
    obtain ⟨i, hi, his⟩ := h1
    refine ⟨p, _, .recv (q := (w.ranks p)[i]) hx he his (List.getElem?_eq_getElem hi) ?_⟩
    obtain ⟨y, hy⟩ := hall (w.ranks p)[i]
    have e1 : ((w.ranks p).take i).count (w.ranks p)[i] = 0 := by
      rw [List.count_eq_zero]
      intro hm
      obtain ⟨k, hk, hik⟩ := List.mem_take_iff_getElem.1 hm
      have := (List.Nodup.getElem_inj_iff (hn p)).1 hik
      omega
    have e2 : 0 < y.sends.count p.val := by
      rw [List.count_pos_iff, (I.answer hy).2]
      exact ⟨p, rfl, List.getElem_mem hi⟩
    simp only [State.sentTo, hy]
    omega

/-- Steps of the handshake are steps of the whole. -/
theorem lift {w : World n} {a b : Shake.State n} (h : Shake.Reach a b) : ∀ {s : State n}, Inv w s → s.shake = a →
    ∃ t, Reach w s t ∧ t.shake = b := by
  induction h with
  | refl => exact fun _ h => ⟨_, .refl, h⟩
  | @step t u p _ hs ih =>
    intro s I h
    obtain ⟨t', h1, rfl⟩ := ih I h
    have I' := I.reach h1
    have hp : t'.proc p = none := by
      by_contra hc
      obtain ⟨x, hx⟩ := Option.ne_none_iff_exists'.1 hc
      have := I'.res p x hx
      unfold Shake.result at this
      rw [if_neg (step_notDone hs)] at this
      cases this
    exact ⟨_, h1.step p (.shake hp hs), rfl⟩

theorem done_step {w : World n} {s t : State n} {p : Fin n} (hd : Shake.Spec.AllDone s.shake) (h : Step w p s t) :
    Shake.Spec.AllDone t.shake := by
  cases h with
  | shake _ hs => exact (step_notDone hs (hd p)).elim
  | _ => exact hd

/-- **C106**: if no process asks for another twice, no execution can get stuck: it is always possible that all
processes return, and they then know the ranges they asked for. -/
theorem C106_no_deadlock (w : World n) (hn : ∀ p, (w.ranks p).Nodup) {s : State n} (h : Reach w (start w) s) :
    ∃ t, Reach w s t ∧ ∀ p, ∃ m, Spec.Returned t p m ∧ Spec.Lists w.info (w.ranks p) m := by
  have key : ∀ k s, left w s = k → Reach w (start w) s → Shake.Spec.AllDone s.shake →
      ∃ t, Reach w s t ∧ ∀ p, ∃ m, Spec.Returned t p m := by
    intro k
    induction k using Nat.strongRecOn with
    | ind k ih =>
      intro s hk hr hd
      by_cases hall : ∀ p, ∃ m, Spec.Returned s p m
      · exact ⟨s, .refl, hall⟩
      · simp only [not_forall, not_exists] at hall
        obtain ⟨p, hp⟩ := hall
        obtain ⟨q, t, ht⟩ := progress hn (inv_reach hr) hd hp
        obtain ⟨u, h1, h2⟩ := ih (left w t) (by have := C106_work w hr hd ht; omega) t rfl (hr.step q ht)
          (done_step hd ht)
        exact ⟨u, (Reach.step q .refl ht).trans h1, h2⟩
  have I := inv_reach h
  obtain ⟨b, h1, h2, _⟩ := Shake.C28_no_deadlock w.ranks s.shake I.shake
  obtain ⟨t, h3, rfl⟩ := lift h1 I rfl
  obtain ⟨u, h4, h5⟩ := key _ t rfl (h.trans h3) h2
  refine ⟨u, h3.trans h4, fun p => ?_⟩
  obtain ⟨m, hm⟩ := h5 p
  exact ⟨m, hm, C106_answer w (h.trans (h3.trans h4)) hm⟩

/-- Three processes: 0 asks for 1 and for itself, 1 for 0 and 2, 2 for nobody. -/
def threeWorld : World 3 :=
  ⟨fun p => match p with | 0 => [1, 0] | 1 => [0, 2] | 2 => [],
    fun p => ⟨⟨fun i => p + i, fun _ => 10 + p⟩, ⟨fun _ => (p : Int) - 1, fun i => 20 * p + i⟩⟩, fun _ _ => false⟩

/-- The hypothesis of `C106_no_deadlock` holds for it; all three processes can return, process 1 with the ranges of 0
and 2, process 2 with nothing. -/
example : (∀ p, (threeWorld.ranks p).Nodup) ∧
    ∃ t, Reach threeWorld (start threeWorld) t ∧
      (∃ m, Spec.Returned t 1 m ∧ (0, threeWorld.info 0) ∈ m ∧ (2, threeWorld.info 2) ∈ m ∧
        ∀ x, (1, x) ∉ m) ∧ Spec.Returned t 2 [] := by
  have hn : ∀ p, (threeWorld.ranks p).Nodup := by decide
  refine ⟨hn, ?_⟩
  obtain ⟨t, h1, h2⟩ := C106_no_deadlock threeWorld hn .refl
  obtain ⟨m1, h3, h4⟩ := h2 1
  obtain ⟨m2, h5, h6⟩ := h2 2
  refine ⟨t, h1, ⟨m1, h3, (h4.2 _ _).2 ⟨0, by decide, rfl, rfl⟩, (h4.2 _ _).2 ⟨2, by decide, rfl, rfl⟩, ?_⟩, ?_⟩
  · intro x hx
    obtain ⟨q, hq, hk, _⟩ := (h4.2 _ _).1 hx
    have : ∀ q ∈ threeWorld.ranks 1, 1 ≠ q.val := by decide
    exact this q hq hk
  · have : m2 = [] := by
      rw [List.eq_nil_iff_forall_not_mem]
      rintro ⟨k, x⟩ hx
      obtain ⟨q, hq, _⟩ := (h6.2 _ _).1 hx
      cases hq
    rw [← this]
    exact h5

/-- Ranges survive packing: values of one process. -/
example : pack (threeWorld.info 1) = [1, 2, 3, 11, 11, 11, 0, 0, 0, 20, 21, 22] := by decide

end Ovk.Retr
