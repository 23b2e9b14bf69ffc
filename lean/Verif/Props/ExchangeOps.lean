/-
C118: operations of an exchanger exist from their creation until they are destroyed or their connectivity is edited or
destroyed or the exchanger is unbound, and while they exist they work with the current data of their connectivity.
-/
import Verif.Model.ExchangeOps
import Mathlib.Tactic.ByContra
import Mathlib.Tactic.Push
import Mathlib.Data.List.Nodup

namespace Ovk.XOps

/-! ### Specification -/

namespace Spec
variable {C R P : Type}

/-- The contents of the connectivities after a call. -/
def after (f : Id → Option C) : Call C R P → Id → Option C
  | .destroyComponent => fun _ => none
  | .createConns cs _ => fun i => (f i).or ((cs.find? fun x => decide (x.1 = i)).map (·.2))
  | .destroyConns ids => fun i => if i ∈ ids then none else f i
  | .edit es _ => fun i => (f i).map fun c => ((es.find? fun y => decide (y.1.1 = i)).map fun y => y.1.2).getD c
  | _ => f

/-- The contents of the connectivities after a history. -/
def content (h : List (Call C R P)) : Id → Option C := h.foldl after fun _ => none

def isBound (h : List (Call C R P)) : Bool :=
  h.foldl (fun b c => match c with | .bind _ => true | .unbind => false | .destroyComponent => false | _ => b) false

/-- The calls that end the life of an operation. -/
def Ends (k : Kind) (id : Id) (op : Int) : Call C R P → Prop
  | .unbind => True
  | .destroyComponent => True
  | .destroyConns ids => id ∈ ids
  | .edit es _ => ∃ y ∈ es, y.1.1 = id
  | .destroyOp k' id' op' => k' = k ∧ id' = id ∧ op' = op
  | _ => False

/-- The operation was created with parameters `p`, and nothing has ended its life since. -/
def Alive (h : List (Call C R P)) (k : Kind) (id : Id) (op : Int) (p : P) : Prop :=
  ∃ h1 h2, h = h1 ++ .createOp k id op p :: h2 ∧ ∀ c ∈ h2, ¬ Ends k id op c

/-- The number of requests returned so far. -/
def requests (h : List (Call C R P)) : Nat :=
  (h.filter fun c => match c with | .use .send _ _ => true | .use .recv _ _ => true | _ => false).length

/-- The `i`-th request was returned for the operation, after `h1` and before `h2`. -/
def Returned (h : List (Call C R P)) (i : Nat) (k : Kind) (id : Id) (op : Int) (h2 : List (Call C R P)) : Prop :=
  ∃ h1, h = h1 ++ .use k id op :: h2 ∧ (k = .send ∨ k = .recv) ∧ i = requests h1

/-- The calls a program may make after `h`. -/
def Ok (hasM hasN : Id → Bool) (h : List (Call C R P)) : Call C R P → Prop
  | .bind _ => isBound h = false
  | .unbind => isBound h = true
  | .destroyComponent => True
  | .createConns cs _ => (cs.map (·.1)).Nodup ∧ ∀ x ∈ cs, content h x.1 = none
  | .destroyConns ids => ids.Nodup ∧ ∀ i ∈ ids, (content h i).isSome
  | .edit es _ => (es.map (·.1.1)).Nodup ∧ ∀ y ∈ es, (content h y.1.1).isSome ∧ y.2.create = false ∧
      y.2.destroy = false ∧ (y.2.resizeM ∨ y.2.extents ∨ y.2.coords ∨ y.2.interpCoefs ∨ y.2.dests ∨ y.2.resizeN ∨
        y.2.points ∨ y.2.sources)
  | .createOp k id op _ => isBound h = true ∧ (content h id).isSome ∧
      (match k with | .collect => hasM id | .send => hasM id | .recv => hasN id | .disperse => hasN id) = true ∧
      ∀ p, ¬ Alive h k id op p
  | .destroyOp k id op => ∃ p, Alive h k id op p
  | .use k id op => ∃ p, Alive h k id op p
  | .wait i => ∃ k id op h2, Returned h i k id op h2 ∧ ∀ c ∈ h2, ¬ Ends k id op c

/-- A program that makes such calls only. -/
def Valid (hasM hasN : Id → Bool) (h : List (Call C R P)) : Prop :=
  ∀ h1 c h2, h = h1 ++ c :: h2 → Ok hasM hasN h1 c

end Spec

variable {C R M P : Type}

/-! ### The parts of an update -/

@[simp] theorem setLocal_get (s : State C R M P) (side : Bool) (id : Id) (l : Option (Local R M P)) (b : Bool)
    (i : Id) : (s.setLocal side id l).locals b i = if b = side ∧ i = id then l else s.locals b i := rfl

/-- What the steps of an update leave alone. -/
structure Same (s s' : State C R M P) : Prop where
  comp : s'.comp = s.comp
  bound : s'.bound = s.bound
  man : s'.manifest = s.manifest
  reqs : s'.reqs = s.reqs
  le : s.next ≤ s'.next

theorem Same.refl (s : State C R M P) : Same s s := ⟨rfl, rfl, rfl, rfl, Nat.le_refl _⟩

theorem Same.trans {s t u : State C R M P} (a : Same s t) (b : Same t u) : Same s u :=
  ⟨b.comp.trans a.comp, b.bound.trans a.bound, b.man.trans a.man, b.reqs.trans a.reqs, Nat.le_trans a.le b.le⟩

theorem Same.content {s t : State C R M P} (a : Same s t) (i : Id) : t.content i = s.content i := by
  unfold State.content; rw [a.comp]

/-- A fold of a step that treats one connectivity on both sides. -/
theorem fold_sides (e : Env C R M) (f : Bool → State C R M P → Id → Option (State C R M P))
    (Pre : State C R M P → Bool → Id → Prop) (Post : State C R M P → Option (Local R M P) → Option (Local R M P) → Bool → Id → Prop)
    (hpre : ∀ s t b i, Same s t → t.locals b i = s.locals b i → Pre s b i → Pre t b i)
    (hpost : ∀ s t o l b i, Same s t → Post t o l b i → Post s o l b i)
    (hf : ∀ b s i, (e.has b i → Pre s b i) → ∃ s', f b s i = some s' ∧ Same s s' ∧
      (∀ b' i', ¬ (b' = b ∧ i' = i) → s'.locals b' i' = s.locals b' i') ∧
      (e.has b i = false → s'.locals b i = s.locals b i) ∧
      (e.has b i → Post s (s.locals b i) (s'.locals b i) b i)) :
    ∀ (ids : List Id) (s : State C R M P), ids.Nodup → (∀ b, ∀ i ∈ ids, e.has b i → Pre s b i) →
      ∃ s', ids.foldlM (fun s id => (f true s id).bind fun s => f false s id) s = some s' ∧ Same s s' ∧
        (∀ b i, i ∉ ids ∨ e.has b i = false → s'.locals b i = s.locals b i) ∧
        ∀ b, ∀ i ∈ ids, e.has b i → Post s (s.locals b i) (s'.locals b i) b i := by
  intro ids
  induction ids with
  | nil => exact fun s _ _ => ⟨s, rfl, Same.refl s, fun _ _ _ => rfl, fun _ _ h => absurd h (by simp)⟩
  | cons i ids ih =>
    intro s hn hp
    obtain ⟨hni, hn'⟩ := List.nodup_cons.mp hn
    obtain ⟨s1, e1, m1, o1, n1, p1⟩ := hf true s i (hp true i (by simp))
    obtain ⟨s2, e2, m2, o2, n2, p2⟩ := hf false s1 i fun hh => hpre s s1 false i m1 (o1 false i (by simp))
      (hp false i (by simp) hh)
    have oth : ∀ b i', i' ≠ i → s2.locals b i' = s.locals b i' := by
      intro b i' hne
      rw [o2 b i' (by tauto), o1 b i' (by tauto)]
    obtain ⟨s3, e3, m3, o3, p3⟩ := ih s2 hn' fun b i' hi' hh => hpre s s2 b i' (m1.trans m2)
      (oth b i' (by rintro rfl; exact hni hi')) (hp b i' (by simp [hi']) hh)
    refine ⟨s3, ?_, (m1.trans m2).trans m3, ?_, ?_⟩
    · simp only [List.foldlM_cons, e1, e2, Option.bind_some, Option.bind_eq_bind]
      exact e3
    · intro b i' hh
      by_cases hi' : i' = i
      · subst hi'
        have hf' : e.has b i' = false := by
          rcases hh with hh | hh
          · simp at hh
          · exact hh
        rw [o3 b i' (Or.inr hf')]
        cases b
        · rw [n2 hf', o1 false i' (by simp)]
        · rw [o2 true i' (by simp), n1 hf']
      · rw [o3 b i' (by simpa [hi'] using hh), oth b i' hi']
    · intro b i' hi' hh
      by_cases h1 : i' = i
      · subst h1
        rw [o3 b i' (Or.inl hni)]
        cases b
        · rw [← o1 false i' (by simp)]
          exact hpost _ _ _ _ _ _ m1 (p2 hh)
        · rw [o2 true i' (by simp)]
          exact p1 hh
      · have hi2 : i' ∈ ids := by simpa [h1] using hi'
        rw [← oth b i' h1]
        exact hpost _ _ _ _ _ _ (m1.trans m2) (p3 b i' hi2 hh)

theorem createLocals_spec (e : Env C R M) (s : State C R M P) (hn : s.manifest.create.Nodup)
    (hp : ∀ b, ∀ i ∈ s.manifest.create, e.has b i → s.locals b i = none ∧ (s.content i).isSome) :
    ∃ s', createLocals e s = some s' ∧ Same s s' ∧
      (∀ b i, i ∉ s.manifest.create ∨ e.has b i = false → s'.locals b i = s.locals b i) ∧
      ∀ b, ∀ i ∈ s.manifest.create, e.has b i → (s'.locals b i).isSome := by
  apply fold_sides e (fun b s i => createLocal e b s i)
    (fun s b i => s.locals b i = none ∧ (s.content i).isSome) (fun _ _ l _ _ => l.isSome)
  · intro s t b i hs hl hp; rw [hl, hs.content]; exact hp
  · intros; assumption
  · intro b s i hpre
    unfold createLocal
    by_cases hh : e.has b i
    · obtain ⟨h1, h2⟩ := hpre hh
      obtain ⟨c, hc⟩ := Option.isSome_iff_exists.mp h2
      simp only [hh, if_true, h1, hc]
      refine ⟨_, rfl, ⟨rfl, rfl, rfl, rfl, by simp⟩, ?_, by simp, by simp⟩
      intro b' i' hne
      simp [hne]
    · simp only [hh, if_false, Bool.false_eq_true]
      exact ⟨s, rfl, Same.refl s, fun _ _ _ => rfl, fun _ => rfl, fun h => absurd h (by simp)⟩
  · exact hn
  · exact hp

theorem updateRanks_spec (e : Env C R M) (ranks : Bool → Id → R) (s : State C R M P) (hn : s.manifest.ranks.Nodup)
    (hp : ∀ b, ∀ i ∈ s.manifest.ranks, e.has b i → (s.locals b i).isSome) :
    ∃ s', updateRanks e ranks s = some s' ∧ Same s s' ∧
      (∀ b i, i ∉ s.manifest.ranks ∨ e.has b i = false → s'.locals b i = s.locals b i) ∧
      ∀ b, ∀ i ∈ s.manifest.ranks, e.has b i → (s'.locals b i).isSome := by
  apply fold_sides e (fun b s i => updateRanks1 e ranks b s i)
    (fun s b i => (s.locals b i).isSome) (fun _ _ l _ _ => l.isSome)
  · intro s t b i hs hl hp; rw [hl]; exact hp
  · intros; assumption
  · intro b s i hpre
    unfold updateRanks1
    by_cases hh : e.has b i
    · obtain ⟨l, hl⟩ := Option.isSome_iff_exists.mp (hpre hh)
      simp only [hh, if_true, hl]
      refine ⟨_, rfl, ⟨rfl, rfl, rfl, rfl, by simp [State.setLocal]⟩, ?_, by simp, by simp⟩
      intro b' i' hne
      simp [hne]
    · simp only [hh, if_false, Bool.false_eq_true]
      exact ⟨s, rfl, Same.refl s, fun _ _ _ => rfl, fun _ => rfl, fun h => absurd h (by simp)⟩
  · exact hn
  · exact hp

/-- The record has the maps for contents `c` and no operations. -/
def Clean (e : Env C R M) (c : C) (l : Local R M P) : Prop :=
  (∀ k, (l.maps k).2 = e.make k c l.ranks) ∧ ∀ k op, l.ops k op = none

theorem resetExchanges_spec (e : Env C R M) (s : State C R M P) (hn : s.manifest.reset.Nodup)
    (hp : ∀ b, ∀ i ∈ s.manifest.reset, e.has b i → (s.locals b i).isSome ∧ (s.content i).isSome) :
    ∃ s', resetExchanges e s = some s' ∧ Same s s' ∧
      (∀ b i, i ∉ s.manifest.reset ∨ e.has b i = false → s'.locals b i = s.locals b i) ∧
      ∀ b, ∀ i ∈ s.manifest.reset, e.has b i → ∃ l c, s'.locals b i = some l ∧ s.content i = some c ∧ Clean e c l := by
  apply fold_sides e (fun b s i => reset1 e b s i)
    (fun s b i => (s.locals b i).isSome ∧ (s.content i).isSome)
    (fun s _ l' _ i => ∃ l c, l' = some l ∧ s.content i = some c ∧ Clean e c l)
  · intro s t b i hs hl hp; rw [hl, hs.content]; exact hp
  · intro s t o l b i hs hp; rw [hs.content] at hp; exact hp
  · intro b s i hpre
    unfold reset1
    by_cases hh : e.has b i
    · obtain ⟨h1, h2⟩ := hpre hh
      obtain ⟨c, hc⟩ := Option.isSome_iff_exists.mp h2
      obtain ⟨l, hl⟩ := Option.isSome_iff_exists.mp h1
      simp only [hh, if_true, hl, hc]
      refine ⟨_, rfl, ⟨rfl, rfl, rfl, rfl, by simp⟩, ?_, by simp, fun _ => ⟨{ l with
        maps := fun k => (s.next + k.slot, e.make k c l.ranks), ops := fun _ _ => none }, c, by simp, rfl, ?_⟩⟩
      · intro b' i' hne
        simp [hne]
      · exact ⟨fun _ => rfl, fun _ _ => rfl⟩
    · simp only [hh, if_false, Bool.false_eq_true]
      exact ⟨s, rfl, Same.refl s, fun _ _ _ => rfl, fun _ => rfl, fun h => absurd h (by simp)⟩
  · exact hn
  · exact hp

theorem destroyLocals_fold (ids : List Id) (s : State C R M P) :
    Same s (ids.foldl (fun s id => (s.setLocal true id none).setLocal false id none) s) ∧
    ∀ b i, (ids.foldl (fun s id => (s.setLocal true id none).setLocal false id none) s).locals b i =
      if i ∈ ids then none else s.locals b i := by
  induction ids generalizing s with
  | nil => exact ⟨Same.refl s, by simp⟩
  | cons j ids ih =>
    obtain ⟨h1, h2⟩ := ih ((s.setLocal true j none).setLocal false j none)
    have h0 : Same s ((s.setLocal true j none).setLocal false j none) := ⟨rfl, rfl, rfl, rfl, Nat.le_refl _⟩
    refine ⟨h0.trans h1, fun b i => ?_⟩
    rw [List.foldl_cons, h2 b i]
    by_cases hi : i ∈ ids
    · simp [hi]
    · by_cases hj : i = j
      · subst hj; cases b <;> simp [hi]
      · simp [hi, hj]

/-- `Update_`. -/
theorem update_spec (e : Env C R M) (ranks : Bool → Id → R) (s : State C R M P)
    (hc : s.manifest.create.Nodup) (hr : s.manifest.ranks.Nodup) (hx : s.manifest.reset.Nodup)
    (hcx : ∀ i ∈ s.manifest.create, i ∈ s.manifest.reset) (hrx : ∀ i ∈ s.manifest.ranks, i ∈ s.manifest.reset)
    (hdx : ∀ i ∈ s.manifest.destroy, i ∉ s.manifest.reset)
    (hct : ∀ i ∈ s.manifest.reset, (s.content i).isSome)
    (hnew : ∀ b, ∀ i ∈ s.manifest.create, e.has b i → s.locals b i = none)
    (hold : ∀ b, ∀ i ∈ s.manifest.reset, i ∉ s.manifest.create → e.has b i → (s.locals b i).isSome) :
    ∃ s', update e ranks s = some s' ∧ s'.comp = s.comp ∧ s'.bound = s.bound ∧ s'.manifest = {} ∧
      s'.reqs = s.reqs ∧ s.next ≤ s'.next ∧
      (∀ b i, i ∈ s.manifest.destroy → s'.locals b i = none) ∧
      (∀ b i, i ∈ s.manifest.reset → e.has b i → ∃ l c, s'.locals b i = some l ∧ s.content i = some c ∧ Clean e c l) ∧
      ∀ b i, (i ∉ s.manifest.destroy ∧ i ∉ s.manifest.reset) ∨ (i ∉ s.manifest.destroy ∧ e.has b i = false) →
        s'.locals b i = s.locals b i := by
  obtain ⟨s1, e1, m1, o1, p1⟩ := createLocals_spec e s hc fun b i hi hh => ⟨hnew b i hi hh, hct i (hcx i hi)⟩
  obtain ⟨m2, l2⟩ := destroyLocals_fold s1.manifest.destroy s1
  change Same s1 (destroyLocals s1) at m2
  have rec2 : ∀ b, ∀ i ∈ s.manifest.reset, e.has b i → ((destroyLocals s1).locals b i).isSome := by
    intro b i hi hh
    unfold destroyLocals
    rw [l2 b i, if_neg (by rw [m1.man]; exact fun h => hdx i h hi)]
    by_cases hcr : i ∈ s.manifest.create
    · exact p1 b i hcr hh
    · rw [o1 b i (Or.inl hcr)]; exact hold b i hi hcr hh
  have man2 : (destroyLocals s1).manifest = s.manifest := m2.man.trans m1.man
  obtain ⟨s3, e3, m3, o3, p3⟩ := updateRanks_spec e ranks (destroyLocals s1) (by rw [man2]; exact hr) (by
    rw [man2]; exact fun b i hi hh => rec2 b i (hrx i hi) hh)
  have man3 : s3.manifest = s.manifest := m3.man.trans man2
  have ct3 : ∀ i, s3.content i = s.content i := fun i => by
    rw [m3.content i, Same.content m2 i, m1.content i]
  obtain ⟨s4, e4, m4, o4, p4⟩ := resetExchanges_spec e s3 (by rw [man3]; exact hx) (by
    rw [man3]
    intro b i hi hh
    refine ⟨?_, by rw [ct3]; exact hct i hi⟩
    by_cases hrk : i ∈ s.manifest.ranks
    · exact p3 b i (by rw [man2]; exact hrk) hh
    · rw [o3 b i (Or.inl (by rw [man2]; exact hrk))]; exact rec2 b i hi hh)
  have mm := ((m1.trans m2).trans m3).trans m4
  refine ⟨{ s4 with manifest := {} }, ?_, mm.comp, mm.bound, rfl, mm.reqs, mm.le, ?_, ?_, ?_⟩
  · unfold update
    simp only [e1, e3, e4, Option.bind_some, Option.map_some]
  · intro b i hi
    have hxi := hdx i hi
    show s4.locals b i = none
    rw [o4 b i (Or.inl (by rw [man3]; exact hxi)),
      o3 b i (Or.inl (by rw [man2]; exact fun h => hxi (hrx i h)))]
    unfold destroyLocals
    rw [l2 b i, if_pos (by rw [m1.man]; exact hi)]
  · intro b i hi hh
    obtain ⟨l, c, h1, h2, h3⟩ := p4 b i (by rw [man3]; exact hi) hh
    exact ⟨l, c, h1, by rw [← ct3]; exact h2, h3⟩
  · intro b i hi
    have hd : i ∉ s.manifest.destroy := by tauto
    show s4.locals b i = _
    have hh : i ∉ s.manifest.reset ∨ e.has b i = false := by tauto
    rw [o4 b i (by rw [man3]; exact hh), o3 b i (by rw [man2]; exact hh.imp_left fun h h' => h (hrx i h'))]
    unfold destroyLocals
    rw [l2 b i, if_neg (by rw [m1.man]; exact hd), o1 b i (hh.imp_left fun h h' => h (hcx i h'))]

/-! ### Sequences of events -/

/-- What a sequence of events adds to the manifest. -/
def collected (m : Manifest) (es : List (Id × Flags)) : Manifest where
  create := m.create ++ (es.filter fun x => x.2.create).map (·.1)
  destroy := m.destroy ++ (es.filter fun x => x.2.destroy).map (·.1)
  ranks := m.ranks ++ (es.filter fun x => x.2.create || x.2.dests || x.2.sources).map (·.1)
  reset := m.reset ++ (es.filter fun x => x.2.create || x.2.anyEdit).map (·.1)

theorem trigger_eq (e : Env C R M) (ranks : Bool → Id → R) (s : State C R M P) (es : List (Id × Flags))
    (hb : s.bound = true) (hne : es ≠ []) :
    trigger e ranks s es = update e ranks { s with manifest := collected s.manifest es } := by
  induction es generalizing s with
  | nil => exact absurd rfl hne
  | cons x rest ih =>
    obtain ⟨i, f⟩ := x
    have hm : (let m := s.manifest
        let m := if f.create then { m with create := m.create ++ [i] } else m
        let m := if f.destroy then { m with destroy := m.destroy ++ [i] } else m
        let m := if f.create || f.dests || f.sources then { m with ranks := m.ranks ++ [i] } else m
        if f.create || f.anyEdit then { m with reset := m.reset ++ [i] } else m) = collected s.manifest [(i, f)] := by
      unfold collected
      cases hc : f.create <;> cases hd : f.destroy <;> cases h1 : f.dests <;> cases h2 : f.sources <;>
        cases h3 : f.anyEdit <;> simp_all
    unfold trigger onEvent
    simp only [hb, if_true]
    rw [hm]
    cases rest with
    | nil =>
      simp only [List.isEmpty_nil, if_true]
      show (update e ranks _).bind some = _
      cases update e ranks _ <;> rfl
    | cons y rest =>
      simp only [List.isEmpty_cons, Bool.false_eq_true, if_false, Option.bind_some]
      rw [ih _ rfl (by simp)]
      congr 2
      unfold collected
      simp only [List.filter_cons, List.filter_nil]
      congr 1 <;> split <;> simp [List.append_assoc]

theorem trigger_unbound (e : Env C R M) (ranks : Bool → Id → R) (s : State C R M P) (es : List (Id × Flags))
    (hb : s.bound = false) : trigger e ranks s es = some s := by
  cases es with
  | nil => rfl
  | cons x rest => obtain ⟨i, f⟩ := x; unfold trigger; simp [hb]

/-! ### One call -/

/-- The operation `op` of a table. -/
def get (s : State C R M P) (k : Kind) (id : Id) (op : Int) : Option (Obj P) :=
  (s.locals k.sideM id).bind fun l => l.ops k op

/-- The record has the maps for contents `c`, and its operations use them. -/
def Good (e : Env C R M) (c : C) (l : Local R M P) : Prop :=
  (∀ k, (l.maps k).2 = e.make k c l.ranks) ∧
  ∀ k op o, l.ops k op = some o → o.ref = (l.maps k).1 ∧ o.bufs = e.sizes (l.maps k).2

theorem Clean.good {e : Env C R M} {c : C} {l : Local R M P} (h : Clean e c l) : Good e c l :=
  ⟨h.1, fun k op o ho => by rw [h.2 k op] at ho; cases ho⟩

/-- The state fits the history, operations aside. -/
structure Inv (e : Env C R M) (h : List (Call C R P)) (s : State C R M P) : Prop where
  man : s.manifest = {}
  bound : s.bound = Spec.isBound h
  cont : ∀ i, s.content i = Spec.content h i
  nodup : (s.comp.map (·.1)).Nodup
  out : ∀ b i, s.bound = false ∨ e.has b i = false ∨ s.content i = none → s.locals b i = none
  inn : ∀ b i, s.bound = true → e.has b i = true → (s.content i).isSome → (s.locals b i).isSome
  good : ∀ b i l c, s.locals b i = some l → s.content i = some c → Good e c l

/-- What a call does to operations and requests. -/
structure Change (s : State C R M P) (c : Call C R P) (s' : State C R M P) : Prop where
  ends : ∀ k id op, Spec.Ends k id op c → get s' k id op = none
  made : ∀ k id op p, c = .createOp k id op p → get s k id op = none ∧ ∃ o, get s' k id op = some o ∧ o.params = p ∧
    o.num = s.next ∧ s.next < s'.next
  kept : ∀ k id op, ¬ Spec.Ends k id op c → (∀ p, c ≠ .createOp k id op p) → get s' k id op = get s k id op
  le : s.next ≤ s'.next
  req : ∀ k id op, c = .use k id op → k.request → ∃ o, get s k id op = some o ∧
    s'.reqs = s.reqs ++ [⟨k, id, op, o.num⟩]
  noreq : (∀ k id op, c = .use k id op → k.request = false) → s'.reqs = s.reqs

theorem content_append (h : List (Call C R P)) (c : Call C R P) :
    Spec.content (h ++ [c]) = Spec.after (Spec.content h) c := by
  unfold Spec.content; rw [List.foldl_append]; rfl

theorem isBound_append (h : List (Call C R P)) (c : Call C R P) :
    Spec.isBound (h ++ [c]) = match c with
      | .bind _ => true | .unbind => false | .destroyComponent => false | _ => Spec.isBound h := by
  unfold Spec.isBound; rw [List.foldl_append]; rfl

theorem content_mem (s : State C R M P) (i : Id) : (s.content i).isSome ↔ i ∈ s.comp.map (·.1) := by
  unfold State.content
  rw [Option.isSome_map, List.find?_isSome]
  simp

theorem get_none {s : State C R M P} {k : Kind} {i : Id} {op : Int} (h : s.locals k.sideM i = none) :
    get s k i op = none := by unfold get; rw [h]; rfl

theorem get_congr {s s' : State C R M P} {k : Kind} {i : Id} {op : Int}
    (h : s'.locals k.sideM i = s.locals k.sideM i) : get s' k i op = get s k i op := by unfold get; rw [h]

theorem get_clean {e : Env C R M} {s : State C R M P} {k : Kind} {i : Id} {op : Int} {l : Local R M P} {c : C}
    (h : s.locals k.sideM i = some l) (hc : Clean e c l) : get s k i op = none := by
  unfold get; rw [h]; exact hc.2 k op

theorem step_bind (e : Env C R M) {h : List (Call C R P)} {s : State C R M P} (inv : Inv e h s)
    (ranks : Bool → Id → R) (ok : Spec.Ok (e.has true) (e.has false) h (.bind ranks)) :
    ∃ s', step e s (.bind ranks) = some s' ∧ Inv e (h ++ [.bind ranks]) s' ∧ Change s (.bind ranks) s' := by
  have hb : s.bound = false := inv.bound.trans ok
  obtain ⟨s', e1, c1, b1, m1, r1, n1, -, x1, o1⟩ := update_spec e ranks
    { s with bound := true, manifest := ⟨s.comp.map (·.1), [], s.comp.map (·.1), s.comp.map (·.1)⟩ }
    inv.nodup inv.nodup inv.nodup (fun _ h => h) (fun _ h => h) (by simp)
    (fun i hi => (content_mem s i).mpr hi) (fun b i _ _ => inv.out b i (Or.inl hb))
    (fun b i h1 h2 => absurd h1 h2)
  have hct : ∀ i, s'.content i = s.content i := fun i => by unfold State.content; rw [c1]
  have hloc : ∀ k i op, get s' k i op = none := by
    intro k i op
    by_cases hi : i ∈ s.comp.map (·.1) ∧ e.has k.sideM i
    · obtain ⟨l, c, h1, -, h3⟩ := x1 k.sideM i hi.1 hi.2
      exact get_clean h1 h3
    · apply get_none
      rw [o1 k.sideM i ?_]
      · exact inv.out _ _ (Or.inl hb)
      · by_cases h1 : i ∈ s.comp.map (·.1)
        · exact Or.inr ⟨by simp, by simpa [h1] using hi⟩
        · exact Or.inl ⟨by simp, h1⟩
  refine ⟨s', ?_, ⟨m1, ?_, ?_, by rw [c1]; exact inv.nodup, ?_, ?_, ?_⟩, ?_⟩
  · unfold step; simp only [hb, Bool.false_eq_true, if_false]; exact e1
  · rw [isBound_append, b1]
  · intro i; rw [hct, inv.cont, content_append]; rfl
  · intro b i hh
    rw [b1, hct] at hh
    have hh' : e.has b i = false ∨ i ∉ s.comp.map (·.1) := by
      rcases hh with hh | hh | hh
      · cases hh
      · exact Or.inl hh
      · exact Or.inr fun h => by rw [← content_mem, hh] at h; cases h
    rw [o1 b i (by rcases hh' with hh | hh; exacts [Or.inr ⟨by simp, hh⟩, Or.inl ⟨by simp, hh⟩])]
    exact inv.out _ _ (Or.inl hb)
  · intro b i _ hh hc
    rw [hct, content_mem] at hc
    obtain ⟨l, c, h1, -⟩ := x1 b i hc hh
    rw [h1]; rfl
  · intro b i l c hl hc
    rw [hct] at hc
    by_cases hh : e.has b i
    · obtain ⟨l', c', h1, h2, h3⟩ := x1 b i ((content_mem s i).mp (by rw [hc]; rfl)) hh
      have h2' : s.content i = some c' := h2
      rw [hl] at h1; rw [hc] at h2'
      cases h1; cases h2'
      exact h3.good
    · rw [o1 b i (Or.inr ⟨by simp, by simpa using hh⟩)] at hl
      rw [inv.out b i (Or.inl hb)] at hl
      cases hl
  · refine ⟨fun k id op hE => hE.elim, fun k id op p hc => (by cases hc), fun k id op _ _ => ?_, n1,
      fun k id op hc => (by cases hc), fun _ => r1⟩
    rw [hloc, get_none (inv.out _ _ (Or.inl hb))]

/-- Calls that do not touch the connectivities or the binding. -/
theorem Inv.snoc {e : Env C R M} {h : List (Call C R P)} {s s' : State C R M P} {c : Call C R P} (inv : Inv e h s)
    (hcont : Spec.after (Spec.content h) c = Spec.content h) (hbd : Spec.isBound (h ++ [c]) = Spec.isBound h)
    (hcomp : s'.comp = s.comp) (hb : s'.bound = s.bound) (hm : s'.manifest = s.manifest)
    (hl : ∀ b i, (s'.locals b i).isSome = (s.locals b i).isSome)
    (hg : ∀ b i l c, s'.locals b i = some l → s.content i = some c → Good e c l) : Inv e (h ++ [c]) s' := by
  have hct : ∀ i, s'.content i = s.content i := fun i => by unfold State.content; rw [hcomp]
  refine ⟨hm.trans inv.man, hb.trans (inv.bound.trans hbd.symm), fun i => ?_, by rw [hcomp]; exact inv.nodup, ?_, ?_, ?_⟩
  · rw [hct, inv.cont, content_append, hcont]
  · intro b i hh
    rw [hb, hct] at hh
    have h1 := hl b i
    rw [inv.out b i hh] at h1
    simpa using h1
  · intro b i h1 h2 h3
    rw [hl]; exact inv.inn b i (hb ▸ h1) h2 (hct i ▸ h3)
  · intro b i l c h1 h2
    exact hg b i l c h1 (hct i ▸ h2)

theorem trigger_spec (e : Env C R M) (ranks : Bool → Id → R) (s : State C R M P) (es : List (Id × Flags))
    (hm : s.manifest = {}) (hn : (es.map (·.1)).Nodup)
    (hd : ∀ x ∈ es, x.2.destroy = true → x.2.create = false ∧ x.2.anyEdit = false)
    (hct : ∀ x ∈ es, (x.2.create || x.2.anyEdit) = true → (s.content x.1).isSome)
    (hnew : s.bound = true → ∀ b, ∀ x ∈ es, x.2.create = true → e.has b x.1 → s.locals b x.1 = none)
    (hold : s.bound = true → ∀ b, ∀ x ∈ es, x.2.create = false → x.2.anyEdit = true → e.has b x.1 →
      (s.locals b x.1).isSome) :
    ∃ s', trigger e ranks s es = some s' ∧ s'.comp = s.comp ∧ s'.bound = s.bound ∧ s'.manifest = {} ∧
      s'.reqs = s.reqs ∧ s.next ≤ s'.next ∧
      (s.bound = true → ∀ b, ∀ x ∈ es, x.2.destroy = true → s'.locals b x.1 = none) ∧
      (s.bound = true → ∀ b, ∀ x ∈ es, (x.2.create || x.2.anyEdit) = true → e.has b x.1 →
        ∃ l c, s'.locals b x.1 = some l ∧ s.content x.1 = some c ∧ Clean e c l) ∧
      ∀ b i, s.bound = false ∨ i ∉ es.map (·.1) ∨
        (e.has b i = false ∧ ∀ x ∈ es, x.1 = i → x.2.destroy = false) → s'.locals b i = s.locals b i := by
  by_cases hb : s.bound = true
  swap
  · have hb' : s.bound = false := by simpa using hb
    exact ⟨s, trigger_unbound e ranks s es hb', rfl, rfl, hm, rfl, Nat.le_refl _, fun h => absurd h hb,
      fun h => absurd h hb, fun _ _ _ => rfl⟩
  by_cases hne : es = []
  · subst hne
    exact ⟨s, rfl, rfl, rfl, hm, rfl, Nat.le_refl _, by simp, by simp, fun _ _ _ => rfl⟩
  have key : ∀ x ∈ es, ∀ y ∈ es, x.1 = y.1 → x = y := fun x hx y hy hxy => List.inj_on_of_nodup_map hn hx hy hxy
  have hed : ∀ f : Flags, f.dests = true ∨ f.sources = true → f.anyEdit = true := by
    intro f hf
    unfold Flags.anyEdit
    rcases hf with hf | hf <;> simp [hf]
  have memf : ∀ (q : Id × Flags → Bool) i, i ∈ (es.filter q).map (·.1) ↔ ∃ x ∈ es, q x = true ∧ x.1 = i := by
    intro q i; simp [List.mem_map, List.mem_filter, and_assoc]
  have nodupf : ∀ q : Id × Flags → Bool, ((es.filter q).map (·.1)).Nodup := fun q =>
    (List.filter_sublist.map _).nodup hn
  have e0 := trigger_eq e ranks s es hb hne
  have hcol : collected s.manifest es = ⟨(es.filter fun x => x.2.create).map (·.1),
      (es.filter fun x => x.2.destroy).map (·.1), (es.filter fun x => x.2.create || x.2.dests || x.2.sources).map (·.1),
      (es.filter fun x => x.2.create || x.2.anyEdit).map (·.1)⟩ := by
    rw [hm]; unfold collected; simp
  rw [hcol] at e0
  obtain ⟨s', e1, c1, b1, m1, r1, n1, d1, x1, o1⟩ := update_spec e ranks
    { s with manifest := ⟨(es.filter fun x => x.2.create).map (·.1),
      (es.filter fun x => x.2.destroy).map (·.1), (es.filter fun x => x.2.create || x.2.dests || x.2.sources).map (·.1),
      (es.filter fun x => x.2.create || x.2.anyEdit).map (·.1)⟩ }
    (nodupf _) (nodupf _) (nodupf _)
    (by
      intro i hi
      obtain ⟨x, hx, hq, rfl⟩ := (memf _ i).mp hi
      exact (memf _ _).mpr ⟨x, hx, by simp [hq], rfl⟩)
    (by
      intro i hi
      obtain ⟨x, hx, hq, rfl⟩ := (memf _ i).mp hi
      refine (memf _ _).mpr ⟨x, hx, ?_, rfl⟩
      have := hed x.2
      simp only [Bool.or_eq_true] at hq ⊢
      tauto)
    (by
      intro i hi hi2
      obtain ⟨x, hx, hq, rfl⟩ := (memf _ i).mp hi
      obtain ⟨y, hy, hq2, hxy⟩ := (memf _ _).mp hi2
      have := key _ hy _ hx hxy
      subst this
      obtain ⟨h1, h2⟩ := hd y hy hq
      simp [h1, h2] at hq2)
    (by
      intro i hi
      obtain ⟨x, hx, hq, rfl⟩ := (memf _ i).mp hi
      exact hct x hx hq)
    (by
      intro b i hi hh
      obtain ⟨x, hx, hq, rfl⟩ := (memf _ i).mp hi
      exact hnew hb b x hx hq hh)
    (by
      intro b i hi hi2 hh
      obtain ⟨x, hx, hq, rfl⟩ := (memf _ i).mp hi
      have hc : x.2.create = false := by
        by_contra hc
        exact hi2 ((memf _ _).mpr ⟨x, hx, by simpa using hc, rfl⟩)
      exact hold hb b x hx hc (by simpa [hc] using hq) hh)
  refine ⟨s', e0.trans e1, c1, b1, m1, r1, n1, ?_, ?_, ?_⟩
  · intro _ b x hx hq
    exact d1 b x.1 ((memf _ _).mpr ⟨x, hx, hq, rfl⟩)
  · intro _ b x hx hq hh
    exact x1 b x.1 ((memf _ _).mpr ⟨x, hx, hq, rfl⟩) hh
  · intro b i hh
    apply o1 b i
    rcases hh with hh | hh | ⟨h1, h2⟩
    · rw [hb] at hh; cases hh
    · left
      constructor
      · intro h; obtain ⟨x, hx, _, rfl⟩ := (memf _ i).mp h; exact hh (List.mem_map.mpr ⟨x, hx, rfl⟩)
      · intro h; obtain ⟨x, hx, _, rfl⟩ := (memf _ i).mp h; exact hh (List.mem_map.mpr ⟨x, hx, rfl⟩)
    · right
      refine ⟨?_, h1⟩
      intro h; obtain ⟨x, hx, hq, rfl⟩ := (memf _ i).mp h
      rw [h2 x hx rfl] at hq; cases hq

theorem step_unbind (e : Env C R M) {h : List (Call C R P)} {s : State C R M P} (inv : Inv e h s)
    (ok : Spec.Ok (e.has true) (e.has false) h (.unbind : Call C R P)) :
    ∃ s', step e s .unbind = some s' ∧ Inv e (h ++ [.unbind]) s' ∧ Change s .unbind s' := by
  have hb : s.bound = true := inv.bound.trans ok
  refine ⟨unbind s, by unfold step; simp [hb], ⟨inv.man, ?_, ?_, inv.nodup, fun _ _ _ => rfl, fun _ _ h1 => ?_,
    fun _ _ _ _ h1 => ?_⟩, ?_⟩
  · rw [isBound_append]; rfl
  · intro i; rw [content_append]; exact inv.cont i
  · cases h1
  · cases h1
  · exact ⟨fun _ _ _ _ => rfl, fun _ _ _ _ hc => (by cases hc), fun _ _ _ hn => (hn trivial).elim,
      Nat.le_refl _, fun _ _ _ hc => (by cases hc), fun _ => rfl⟩

theorem step_destroyComponent (e : Env C R M) {h : List (Call C R P)} {s : State C R M P} (inv : Inv e h s) :
    ∃ s', step e s .destroyComponent = some s' ∧ Inv e (h ++ [.destroyComponent]) s' ∧
      Change s .destroyComponent s' := by
  have hl : ∀ b i, (if s.bound then unbind s else s).locals b i = none := by
    intro b i
    by_cases hb : s.bound = true
    · simp [hb, unbind]
    · simp only [hb, if_false, Bool.false_eq_true]
      exact inv.out b i (Or.inl (by simpa using hb))
  have hbd : (if s.bound then unbind s else s).bound = false := by
    by_cases hb : s.bound = true <;> simp [hb, unbind]
  refine ⟨{ (if s.bound then unbind s else s) with comp := [] }, rfl, ⟨?_, ?_, ?_, by simp, fun b i _ => hl b i,
    fun _ _ h1 => ?_, fun b i l c h1 => ?_⟩, ?_⟩
  · show (if s.bound then unbind s else s).manifest = {}
    split <;> exact inv.man
  · rw [isBound_append]; exact hbd
  · intro i; rw [content_append]; rfl
  · rw [show (if s.bound then unbind s else s).bound = true from h1] at hbd; cases hbd
  · have := hl b i
    rw [show (if s.bound then unbind s else s).locals b i = some l from h1] at this
    cases this
  · refine ⟨fun k id op _ => get_none (hl _ _), fun _ _ _ _ hc => (by cases hc), fun _ _ _ hn => (hn trivial).elim,
      ?_, fun _ _ _ hc => (by cases hc), fun _ => ?_⟩
    · show s.next ≤ (if s.bound then unbind s else s).next
      split <;> exact Nat.le_refl _
    · show (if s.bound then unbind s else s).reqs = s.reqs
      split <;> rfl

theorem find_content (xs : List (Id × C)) (i : Id) :
    ((xs.find? fun x => decide (x.1 = i)).map (·.2)).isSome ↔ i ∈ xs.map (·.1) := by
  rw [Option.isSome_map, List.find?_isSome]; simp

theorem step_createConns (e : Env C R M) {h : List (Call C R P)} {s : State C R M P} (inv : Inv e h s)
    (cs : List (Id × C)) (ranks : Bool → Id → R)
    (ok : Spec.Ok (e.has true) (e.has false) h (.createConns cs ranks)) :
    ∃ s', step e s (.createConns cs ranks) = some s' ∧ Inv e (h ++ [.createConns cs ranks]) s' ∧
      Change s (.createConns cs ranks) s' := by
  obtain ⟨okn, okc⟩ := ok
  let t : State C R M P := { s with comp := s.comp ++ cs }
  have hnone : ∀ i ∈ cs.map (·.1), s.content i = none := by
    intro i hi
    obtain ⟨x, hx, rfl⟩ := List.mem_map.mp hi
    rw [inv.cont]; exact okc x hx
  have tct : ∀ i, t.content i = (s.content i).or ((cs.find? fun x => decide (x.1 = i)).map (·.2)) := by
    intro i
    show ((s.comp ++ cs).find? _).map _ = _
    rw [List.find?_append]
    unfold State.content
    cases s.comp.find? (fun x => decide (x.1 = i)) <;> simp
  have ids : (cs.map fun x => (x.1, ({ create := true } : Flags))).map (·.1) = cs.map (·.1) := by
    rw [List.map_map]; rfl
  have mem : ∀ x ∈ cs.map (fun x => (x.1, ({ create := true } : Flags))), x.2 = { create := true } ∧
      x.1 ∈ cs.map (·.1) := by
    intro x hx
    obtain ⟨y, hy, rfl⟩ := List.mem_map.mp hx
    exact ⟨rfl, List.mem_map.mpr ⟨y, hy, rfl⟩⟩
  obtain ⟨s', e1, c1, b1, m1, r1, n1, -, x1, o1⟩ := trigger_spec e ranks t
    (cs.map fun x => (x.1, { create := true })) inv.man (by rw [ids]; exact okn)
    (by intro x hx hd; rw [(mem x hx).1] at hd; cases hd)
    (by
      intro x hx _
      rw [tct, hnone x.1 (mem x hx).2, Option.none_or]
      exact (find_content cs x.1).mpr (mem x hx).2)
    (by intro _ b x hx _ _; exact inv.out b x.1 (Or.inr (Or.inr (hnone x.1 (mem x hx).2))))
    (by intro _ b x hx hc; rw [(mem x hx).1] at hc; cases hc)
  have hct : ∀ i, s'.content i = t.content i := fun i => by unfold State.content; rw [c1]
  rw [ids] at o1
  have oth : ∀ b i, i ∉ cs.map (·.1) ∨ s.bound = false ∨ e.has b i = false → s'.locals b i = s.locals b i := by
    intro b i hh
    rw [o1 b i]
    rcases hh with hh | hh | hh
    · exact Or.inr (Or.inl hh)
    · exact Or.inl hh
    · exact Or.inr (Or.inr ⟨hh, fun x hx _ => by rw [(mem x hx).1]⟩)
  have nw : s.bound = true → ∀ b, ∀ i ∈ cs.map (·.1), e.has b i → ∃ l c, s'.locals b i = some l ∧
      t.content i = some c ∧ Clean e c l := by
    intro hb b i hi hh
    obtain ⟨x, hx, rfl⟩ := List.mem_map.mp hi
    exact x1 hb b (x.1, { create := true }) (List.mem_map.mpr ⟨x, hx, rfl⟩) rfl hh
  refine ⟨s', e1, ⟨m1, ?_, ?_, ?_, ?_, ?_, ?_⟩, ?_⟩
  · rw [isBound_append, b1]; exact inv.bound
  · intro i
    rw [hct, tct, content_append, inv.cont]; rfl
  · rw [c1]
    show ((s.comp ++ cs).map _).Nodup
    rw [List.map_append, List.nodup_append]
    refine ⟨inv.nodup, okn, ?_⟩
    rintro a ha b hb rfl
    have := (content_mem s a).mpr ha
    rw [hnone a hb] at this; cases this
  · intro b i hh
    rw [b1, hct] at hh
    by_cases h1 : i ∉ cs.map (·.1) ∨ s.bound = false ∨ e.has b i = false
    · rw [oth b i h1]
      rcases h1 with h1 | h1 | h1
      · refine inv.out b i ?_
        rcases hh with hh | hh | hh
        · exact Or.inl hh
        · exact Or.inr (Or.inl hh)
        · rw [tct] at hh
          exact Or.inr (Or.inr (Option.or_eq_none_iff.mp hh).1)
      · exact inv.out b i (Or.inl h1)
      · exact inv.out b i (Or.inr (Or.inl h1))
    · push Not at h1
      obtain ⟨h1, h2, h3⟩ := h1
      rcases hh with hh | hh | hh
      · exact absurd hh h2
      · exact absurd hh h3
      · have := (find_content cs i).mpr h1
        rw [tct] at hh
        rw [(Option.or_eq_none_iff.mp hh).2] at this; cases this
  · intro b i h1 h2 h3
    rw [b1] at h1
    by_cases hi : i ∈ cs.map (·.1)
    · obtain ⟨l, c, h4, -⟩ := nw h1 b i hi h2
      rw [h4]; rfl
    · rw [oth b i (Or.inl hi)]
      apply inv.inn b i h1 h2
      rw [hct, tct] at h3
      have : (cs.find? fun x => decide (x.1 = i)).map (·.2) = none := by
        exact Option.not_isSome_iff_eq_none.mp (mt (find_content cs i).mp hi)
      rw [this] at h3
      simpa using h3
  · intro b i l c h1 h2
    rw [hct] at h2
    by_cases hx : i ∉ cs.map (·.1) ∨ s.bound = false ∨ e.has b i = false
    · rw [oth b i hx] at h1
      cases hsc : s.content i with
      | none => rw [inv.out b i (Or.inr (Or.inr hsc))] at h1; cases h1
      | some c' =>
        rw [tct, hsc] at h2
        cases h2
        exact inv.good b i l _ h1 hsc
    · push Not at hx
      obtain ⟨hx1, hx2, hx3⟩ := hx
      obtain ⟨l', c', h4, h5, h6⟩ := nw (by simpa using hx2) b i hx1 (by simpa using hx3)
      rw [h1] at h4; rw [h2] at h5
      cases h4; cases h5
      exact h6.good
  · refine ⟨fun _ _ _ hE => hE.elim, fun _ _ _ _ hc => (by cases hc), fun k id op _ _ => ?_, n1,
      fun _ _ _ hc => (by cases hc), fun _ => r1⟩
    by_cases hx : id ∉ cs.map (·.1) ∨ s.bound = false ∨ e.has k.sideM id = false
    · exact get_congr (oth _ _ hx)
    · push Not at hx
      obtain ⟨hx1, hx2, hx3⟩ := hx
      obtain ⟨l', c', h4, h5, h6⟩ := nw (by simpa using hx2) k.sideM id hx1 (by simpa using hx3)
      rw [get_clean h4 h6, get_none (inv.out _ _ (Or.inr (Or.inr (hnone id hx1))))]

theorem step_destroyConns (e : Env C R M) {h : List (Call C R P)} {s : State C R M P} (inv : Inv e h s)
    (ids : List Id) (ok : Spec.Ok (e.has true) (e.has false) h (.destroyConns ids : Call C R P)) :
    ∃ s', step e s (.destroyConns ids) = some s' ∧ Inv e (h ++ [.destroyConns ids]) s' ∧
      Change s (.destroyConns ids) s' := by
  obtain ⟨okn, okc⟩ := ok
  have hids : (ids.map fun i => (i, ({ destroy := true } : Flags))).map (·.1) = ids := by
    rw [List.map_map]
    show ids.map (fun i => i) = ids
    simp
  have mem : ∀ x ∈ ids.map (fun i => (i, ({ destroy := true } : Flags))), x.2 = { destroy := true } := by
    intro x hx
    obtain ⟨y, hy, rfl⟩ := List.mem_map.mp hx
    rfl
  obtain ⟨s', e1, c1, b1, m1, r1, n1, d1, x1, o1⟩ := trigger_spec e (fun _ _ => e.r0) s
    (ids.map fun i => (i, { destroy := true })) inv.man (by rw [hids]; exact okn)
    (by intro x hx hd; rw [mem x hx]; exact ⟨rfl, rfl⟩)
    (by intro x hx hd; rw [mem x hx] at hd; cases hd)
    (by intro _ b x hx hd; rw [mem x hx] at hd; cases hd)
    (by intro _ b x hx _ hd; rw [mem x hx] at hd; cases hd)
  rw [hids] at o1
  have gone : ∀ b, ∀ i ∈ ids, s'.locals b i = none := by
    intro b i hi
    by_cases hb : s.bound = true
    · exact d1 hb b (i, { destroy := true }) (List.mem_map.mpr ⟨i, hi, rfl⟩) rfl
    · have hb' : s.bound = false := by simpa using hb
      rw [o1 b i (Or.inl hb')]
      exact inv.out b i (Or.inl hb')
  have oth : ∀ b i, i ∉ ids → s'.locals b i = s.locals b i := fun b i hi => o1 b i (Or.inr (Or.inl hi))
  let s2 : State C R M P := { s' with comp := s'.comp.filter fun x => decide (x.1 ∉ ids) }
  have hct : ∀ i, s2.content i = if i ∈ ids then none else s.content i := by
    intro i
    show ((s'.comp.filter _).find? _).map _ = _
    rw [c1]
    unfold State.content
    generalize s.comp = xs
    by_cases hi : i ∈ ids
    · rw [if_pos hi]
      rw [Option.map_eq_none_iff, List.find?_eq_none]
      intro x hx
      simp only [List.mem_filter, decide_eq_true_eq] at hx
      simp only [decide_eq_true_eq]
      rintro rfl
      exact hx.2 hi
    · rw [if_neg hi]
      induction xs with
      | nil => rfl
      | cons x xs ih =>
        by_cases hx : x.1 = i
        · rw [List.filter_cons, if_pos (by simpa [hx] using hi)]
          simp [hx]
        · rw [List.filter_cons]
          split
          · rw [List.find?_cons_of_neg (by simpa using hx), List.find?_cons_of_neg (by simpa using hx)]
            exact ih
          · rw [List.find?_cons_of_neg (by simpa using hx)]
            exact ih
  refine ⟨s2, by simp only [step, e1, Option.map_some]; rfl, ⟨m1, ?_, ?_, ?_, ?_, ?_, ?_⟩, ?_⟩
  · rw [isBound_append]
    exact b1.trans inv.bound
  · intro i
    rw [hct, content_append, inv.cont]; rfl
  · show ((s'.comp.filter _).map _).Nodup
    rw [c1]
    exact (List.filter_sublist.map _).nodup inv.nodup
  · intro b i hh
    show s'.locals b i = none
    by_cases hi : i ∈ ids
    · exact gone b i hi
    · rw [oth b i hi]
      rw [hct, if_neg hi] at hh
      exact inv.out b i (by rw [← b1]; exact hh)
  · intro b i h1 h2 h3
    show (s'.locals b i).isSome
    rw [hct] at h3
    by_cases hi : i ∈ ids
    · rw [if_pos hi] at h3; cases h3
    · rw [if_neg hi] at h3
      rw [oth b i hi]
      exact inv.inn b i (b1 ▸ h1) h2 h3
  · intro b i l c h1 h2
    have h1' : s'.locals b i = some l := h1
    by_cases hi : i ∈ ids
    · rw [gone b i hi] at h1'; cases h1'
    · rw [hct, if_neg hi] at h2
      rw [oth b i hi] at h1'
      exact inv.good b i l c h1' h2
  · refine ⟨fun k id op hE => get_none (gone _ _ hE), fun _ _ _ _ hc => (by cases hc), fun k id op hE _ => ?_, n1,
      fun _ _ _ hc => (by cases hc), fun _ => r1⟩
    exact get_congr (oth _ _ hE)

theorem step_edit (e : Env C R M) {h : List (Call C R P)} {s : State C R M P} (inv : Inv e h s)
    (es : List ((Id × C) × Flags)) (ranks : Bool → Id → R)
    (ok : Spec.Ok (e.has true) (e.has false) h (.edit es ranks)) :
    ∃ s', step e s (.edit es ranks) = some s' ∧ Inv e (h ++ [.edit es ranks]) s' ∧
      Change s (.edit es ranks) s' := by
  obtain ⟨okn, okc⟩ := ok
  let t : State C R M P := { s with comp := s.comp.map (replaced es) }
  have hsome : ∀ y ∈ es, (s.content y.1.1).isSome := fun y hy => by rw [inv.cont]; exact (okc y hy).1
  have hfst : ∀ x : Id × C, (replaced es x).1 = x.1 := by
    intro x
    unfold replaced
    cases hf : es.find? fun y => decide (y.1.1 = x.1) with
    | none => rfl
    | some y => simpa using List.find?_some hf
  have hid : (s.comp.map (replaced es)).map (·.1) = s.comp.map (·.1) := by
    rw [List.map_map]
    exact List.map_congr_left fun x _ => hfst x
  have tct : ∀ i, t.content i =
      (s.content i).map fun c => ((es.find? fun y => decide (y.1.1 = i)).map fun y => y.1.2).getD c := by
    intro i
    show ((s.comp.map (replaced es)).find? _).map _ = _
    unfold State.content
    generalize s.comp = xs
    induction xs with
    | nil => rfl
    | cons x xs ih =>
      rw [List.map_cons]
      by_cases hx : x.1 = i
      · rw [List.find?_cons_of_pos (by rw [hfst]; simpa using hx), List.find?_cons_of_pos (by simpa using hx)]
        subst hx
        simp only [Option.map_some]
        unfold replaced
        cases hf : es.find? fun y => decide (y.1.1 = x.1) <;> simp
      · rw [List.find?_cons_of_neg (by rw [hfst]; simpa using hx), List.find?_cons_of_neg (by simpa using hx)]
        exact ih
  have tsome : ∀ i, (t.content i).isSome = (s.content i).isSome := fun i => by rw [tct, Option.isSome_map]
  have hany : ∀ y ∈ es, y.2.anyEdit = true := by
    intro y hy
    obtain ⟨-, -, -, h4⟩ := okc y hy
    unfold Flags.anyEdit
    simp only [Bool.or_eq_true]
    tauto
  have hev : editEvents es = es.map fun y => (y.1.1, y.2) := by
    unfold editEvents
    rw [List.filter_eq_self.mpr]
    intro y hy
    simp only [ne_eq, decide_not, Bool.not_eq_true', decide_eq_false_iff_not]
    intro h0
    have := hany y hy
    rw [h0] at this
    cases this
  have ids : (es.map fun y => (y.1.1, y.2)).map (·.1) = es.map (·.1.1) := by rw [List.map_map]; rfl
  have mem : ∀ x ∈ es.map (fun y => (y.1.1, y.2)), ∃ y ∈ es, x = (y.1.1, y.2) := by
    intro x hx
    obtain ⟨y, hy, rfl⟩ := List.mem_map.mp hx
    exact ⟨y, hy, rfl⟩
  obtain ⟨s', e1, c1, b1, m1, r1, n1, -, x1, o1⟩ := trigger_spec e ranks t
    (es.map fun y => (y.1.1, y.2)) inv.man (by rw [ids]; exact okn)
    (by
      intro x hx hd
      obtain ⟨y, hy, rfl⟩ := mem x hx
      rw [(okc y hy).2.2.1] at hd; cases hd)
    (by
      intro x hx hd
      obtain ⟨y, hy, rfl⟩ := mem x hx
      rw [tsome]; exact hsome y hy)
    (by
      intro _ b x hx hd
      obtain ⟨y, hy, rfl⟩ := mem x hx
      rw [(okc y hy).2.1] at hd; cases hd)
    (by
      intro hb b x hx _ _ hh
      obtain ⟨y, hy, rfl⟩ := mem x hx
      exact inv.inn b _ hb hh (hsome y hy))
  have hct : ∀ i, s'.content i = t.content i := fun i => by unfold State.content; rw [c1]
  rw [ids] at o1
  have oth : ∀ b i, i ∉ es.map (·.1.1) ∨ s.bound = false ∨ e.has b i = false → s'.locals b i = s.locals b i := by
    intro b i hh
    rw [o1 b i]
    rcases hh with hh | hh | hh
    · exact Or.inr (Or.inl hh)
    · exact Or.inl hh
    · refine Or.inr (Or.inr ⟨hh, fun x hx _ => ?_⟩)
      obtain ⟨y, hy, rfl⟩ := mem x hx
      exact (okc y hy).2.2.1
  have nw : s.bound = true → ∀ b, ∀ i ∈ es.map (·.1.1), e.has b i → ∃ l c, s'.locals b i = some l ∧
      t.content i = some c ∧ Clean e c l := by
    intro hb b i hi hh
    obtain ⟨y, hy, rfl⟩ := List.mem_map.mp hi
    exact x1 hb b (y.1.1, y.2) (List.mem_map.mpr ⟨y, hy, rfl⟩) (by simp [hany y hy]) hh
  refine ⟨s', by simp only [step, hev]; exact e1, ⟨m1, ?_, ?_, ?_, ?_, ?_, ?_⟩, ?_⟩
  · rw [isBound_append, b1]; exact inv.bound
  · intro i
    rw [hct, tct, content_append, inv.cont]; rfl
  · rw [c1]
    show ((s.comp.map (replaced es)).map _).Nodup
    rw [hid]; exact inv.nodup
  · intro b i hh
    rw [b1, hct] at hh
    have hh' : s.bound = false ∨ e.has b i = false ∨ s.content i = none := by
      rcases hh with hh | hh | hh
      · exact Or.inl hh
      · exact Or.inr (Or.inl hh)
      · have := tsome i
        rw [hh] at this
        exact Or.inr (Or.inr (by simpa using this))
    rw [oth b i ?_]
    · exact inv.out b i hh'
    · rcases hh' with h1 | h1 | h1
      · exact Or.inr (Or.inl h1)
      · exact Or.inr (Or.inr h1)
      · left
        intro hi
        obtain ⟨y, hy, rfl⟩ := List.mem_map.mp hi
        have := hsome y hy
        rw [h1] at this; cases this
  · intro b i h1 h2 h3
    rw [b1] at h1
    by_cases hi : i ∈ es.map (·.1.1)
    · obtain ⟨l, c, h4, -⟩ := nw h1 b i hi h2
      rw [h4]; rfl
    · rw [oth b i (Or.inl hi)]
      exact inv.inn b i h1 h2 (by rw [← tsome, ← hct]; exact h3)
  · intro b i l c h1 h2
    rw [hct] at h2
    by_cases hx : s.bound = false ∨ e.has b i = false
    · rw [oth b i (Or.inr hx), inv.out b i (hx.imp_right Or.inl)] at h1
      cases h1
    · push Not at hx
      obtain ⟨hx2, hx3⟩ := hx
      by_cases hi : i ∈ es.map (·.1.1)
      · obtain ⟨l', c', h4, h5, h6⟩ := nw (by simpa using hx2) b i hi (by simpa using hx3)
        rw [h1] at h4; rw [h2] at h5
        cases h4; cases h5
        exact h6.good
      · rw [oth b i (Or.inl hi)] at h1
        have hf : es.find? (fun y => decide (y.1.1 = i)) = none := by
          rw [List.find?_eq_none]
          intro y hy hyi
          exact hi (List.mem_map.mpr ⟨y, hy, by simpa using hyi⟩)
        rw [tct, hf] at h2
        exact inv.good b i l c h1 (by simpa using h2)
  · have kept : ∀ k (id : Id) op, id ∉ es.map (·.1.1) → get s' k id op = get s k id op :=
      fun k id op hi => get_congr (oth _ _ (Or.inl hi))
    refine ⟨fun k id op hE => ?_, fun _ _ _ _ hc => (by cases hc), fun k id op hE _ => ?_, n1,
      fun _ _ _ hc => (by cases hc), fun _ => r1⟩
    · obtain ⟨y, hy, rfl⟩ := hE
      by_cases hx : s.bound = false ∨ e.has k.sideM y.1.1 = false
      · apply get_none
        rw [oth _ _ (Or.inr hx)]
        exact inv.out _ _ (hx.imp_right Or.inl)
      · push Not at hx
        obtain ⟨hx2, hx3⟩ := hx
        obtain ⟨l', c', h4, h5, h6⟩ := nw (by simpa using hx2) k.sideM y.1.1 (List.mem_map.mpr ⟨y, hy, rfl⟩)
          (by simpa using hx3)
        exact get_clean h4 h6
    · apply kept
      intro hi
      obtain ⟨y, hy, rfl⟩ := List.mem_map.mp hi
      exact hE ⟨y, hy, rfl⟩

theorem record_eq (e : Env C R M) {h : List (Call C R P)} {s : State C R M P} (inv : Inv e h s) (k : Kind) (id : Id) :
    record e s k id = s.locals k.sideM id := by
  unfold record
  by_cases hh : (s.bound && (s.content id).isSome && e.has k.sideM id) = true
  · rw [if_pos hh]
  · rw [if_neg hh]
    symm
    apply inv.out
    simp only [Bool.and_eq_true, not_and, Bool.not_eq_true] at hh
    by_cases h1 : s.bound = true
    · by_cases h2 : (s.content id).isSome = true
      · exact Or.inr (Or.inl (hh ⟨h1, h2⟩))
      · exact Or.inr (Or.inr (by simpa using h2))
    · exact Or.inl (by simpa using h1)

theorem step_createOp (e : Env C R M) {h : List (Call C R P)} {s : State C R M P} (inv : Inv e h s)
    (k : Kind) (id : Id) (op : Int) (p : P) (hb : s.bound = true) (hc : (s.content id).isSome)
    (hh : e.has k.sideM id) (hno : get s k id op = none) :
    ∃ s', step e s (.createOp k id op p) = some s' ∧ Inv e (h ++ [.createOp k id op p]) s' ∧
      Change s (.createOp k id op p) s' := by
  obtain ⟨l, hl⟩ := Option.isSome_iff_exists.mp (inv.inn k.sideM id hb hh hc)
  have hno' : l.ops k op = none := by unfold get at hno; rw [hl] at hno; exact hno
  let o : Obj P := ⟨s.next, (l.maps k).1, p, e.sizes (l.maps k).2⟩
  let s' : State C R M P := { s.setLocal k.sideM id (some (l.setOp k op (some o))) with next := s.next + 1 }
  have hloc : ∀ b i, s'.locals b i = if b = k.sideM ∧ i = id then some (l.setOp k op (some o)) else s.locals b i :=
    fun _ _ => rfl
  have hget : ∀ k' i op', get s' k' i op' = if k' = k ∧ i = id ∧ op' = op then some o else get s k' i op' := by
    intro k' i op'
    unfold get
    rw [hloc]
    by_cases h1 : k'.sideM = k.sideM ∧ i = id
    · rw [if_pos h1, h1.1, h1.2, hl]
      simp only [Option.bind_some, Local.setOp]
      by_cases h2 : k' = k ∧ op' = op
      · rw [if_pos h2, if_pos ⟨h2.1, trivial, h2.2⟩]
      · rw [if_neg h2, if_neg (fun h3 => h2 ⟨h3.1, h3.2.2⟩)]
    · rw [if_neg h1, if_neg]
      rintro ⟨rfl, rfl, -⟩
      exact h1 ⟨rfl, rfl⟩
  refine ⟨s', ?_, inv.snoc rfl ?_ rfl rfl rfl ?_ ?_, ?_⟩
  · simp only [step, record_eq e inv, hl, Option.bind_some, hno', Option.isSome_none, Bool.false_eq_true, if_false]
    rfl
  · rw [isBound_append]
  · intro b i
    rw [hloc]
    by_cases h1 : b = k.sideM ∧ i = id
    · rw [if_pos h1, h1.1, h1.2, hl]; rfl
    · rw [if_neg h1]
  · intro b i l' c h1 h2
    rw [hloc] at h1
    by_cases h3 : b = k.sideM ∧ i = id
    · rw [if_pos h3] at h1
      obtain ⟨rfl, rfl⟩ := h3
      cases h1
      obtain ⟨g1, g2⟩ := inv.good _ _ l c hl h2
      refine ⟨g1, fun k' op' o' ho => ?_⟩
      simp only [Local.setOp] at ho ⊢
      by_cases h4 : k' = k ∧ op' = op
      · rw [if_pos h4] at ho
        cases ho
        rw [h4.1]; exact ⟨rfl, rfl⟩
      · rw [if_neg h4] at ho
        exact g2 k' op' o' ho
    · rw [if_neg h3] at h1
      exact inv.good b i l' c h1 h2
  · refine ⟨fun _ _ _ hE => hE.elim, ?_, ?_, Nat.le_succ _, fun _ _ _ hc => (by cases hc), fun _ => rfl⟩
    · intro k' id' op' p' heq
      cases heq
      exact ⟨hno, o, by rw [hget, if_pos ⟨rfl, rfl, rfl⟩], rfl, rfl, Nat.lt_succ_self _⟩
    · intro k' id' op' _ hne
      rw [hget, if_neg]
      rintro ⟨rfl, rfl, rfl⟩
      exact hne p rfl

theorem step_destroyOp (e : Env C R M) {h : List (Call C R P)} {s : State C R M P} (inv : Inv e h s)
    (k : Kind) (id : Id) (op : Int) (o : Obj P) (ho : get s k id op = some o) :
    ∃ s', step e s (.destroyOp k id op) = some s' ∧ Inv e (h ++ [.destroyOp k id op]) s' ∧
      Change s (.destroyOp k id op) s' := by
  obtain ⟨l, hl, hlo⟩ := Option.bind_eq_some_iff.mp ho
  let s' : State C R M P := s.setLocal k.sideM id (some (l.setOp k op none))
  have hloc : ∀ b i, s'.locals b i = if b = k.sideM ∧ i = id then some (l.setOp k op none) else s.locals b i :=
    fun _ _ => rfl
  have hget : ∀ k' i op', get s' k' i op' = if k' = k ∧ i = id ∧ op' = op then none else get s k' i op' := by
    intro k' i op'
    unfold get
    rw [hloc]
    by_cases h1 : k'.sideM = k.sideM ∧ i = id
    · rw [if_pos h1, h1.1, h1.2, hl]
      simp only [Option.bind_some, Local.setOp]
      by_cases h2 : k' = k ∧ op' = op
      · rw [if_pos h2, if_pos ⟨h2.1, trivial, h2.2⟩]
      · rw [if_neg h2, if_neg (fun h3 => h2 ⟨h3.1, h3.2.2⟩)]
    · rw [if_neg h1, if_neg]
      rintro ⟨rfl, rfl, -⟩
      exact h1 ⟨rfl, rfl⟩
  refine ⟨s', ?_, inv.snoc rfl ?_ rfl rfl rfl ?_ ?_, ?_⟩
  · simp only [step, record_eq e inv, hl, Option.bind_some, hlo, Option.isSome_some, if_true]
    rfl
  · rw [isBound_append]
  · intro b i
    rw [hloc]
    by_cases h1 : b = k.sideM ∧ i = id
    · rw [if_pos h1, h1.1, h1.2, hl]; rfl
    · rw [if_neg h1]
  · intro b i l' c h1 h2
    rw [hloc] at h1
    by_cases h3 : b = k.sideM ∧ i = id
    · rw [if_pos h3] at h1
      obtain ⟨rfl, rfl⟩ := h3
      cases h1
      obtain ⟨g1, g2⟩ := inv.good _ _ l c hl h2
      refine ⟨g1, fun k' op' o' ho => ?_⟩
      simp only [Local.setOp] at ho ⊢
      by_cases h4 : k' = k ∧ op' = op
      · rw [if_pos h4] at ho; cases ho
      · rw [if_neg h4] at ho
        exact g2 k' op' o' ho
    · rw [if_neg h3] at h1
      exact inv.good b i l' c h1 h2
  · refine ⟨?_, fun _ _ _ _ hc => (by cases hc), ?_, Nat.le_refl _, fun _ _ _ hc => (by cases hc), fun _ => rfl⟩
    · rintro k' id' op' ⟨rfl, rfl, rfl⟩
      rw [hget, if_pos ⟨rfl, rfl, rfl⟩]
    · intro k' id' op' hE _
      rw [hget, if_neg]
      rintro ⟨rfl, rfl, rfl⟩
      exact hE ⟨rfl, rfl, rfl⟩

/-- What an existing operation works with. -/
theorem useOp_eq (e : Env C R M) {h : List (Call C R P)} {s : State C R M P} (inv : Inv e h s)
    (k : Kind) (id : Id) (op : Int) (o : Obj P) (ho : get s k id op = some o) :
    ∃ l c, s.locals k.sideM id = some l ∧ Spec.content h id = some c ∧
      useOp e s k id op = some (e.make k c l.ranks, o.params, o.num) := by
  obtain ⟨l, hl, hlo⟩ := Option.bind_eq_some_iff.mp ho
  cases hc : s.content id with
  | none => rw [inv.out _ _ (Or.inr (Or.inr hc))] at hl; cases hl
  | some c =>
    obtain ⟨g1, g2⟩ := inv.good _ _ l c hl hc
    refine ⟨l, c, hl, by rw [← inv.cont]; exact hc, ?_⟩
    unfold useOp
    rw [record_eq e inv, hl]
    simp only [Option.bind_some, hlo]
    rw [if_pos (g2 k op o hlo), g1]

theorem step_use (e : Env C R M) {h : List (Call C R P)} {s : State C R M P} (inv : Inv e h s)
    (k : Kind) (id : Id) (op : Int) (o : Obj P) (ho : get s k id op = some o) :
    ∃ s', step e s (.use k id op) = some s' ∧ Inv e (h ++ [.use k id op]) s' ∧ Change s (.use k id op) s' := by
  obtain ⟨l, c, hl, hc, hu⟩ := useOp_eq e inv k id op o ho
  let s' : State C R M P := if k.request then { s with reqs := s.reqs ++ [⟨k, id, op, o.num⟩] } else s
  have h1 : s'.locals = s.locals := by show (if k.request then _ else _ : State C R M P).locals = _; split <;> rfl
  have h2 : s'.comp = s.comp := by show (if k.request then _ else _ : State C R M P).comp = _; split <;> rfl
  have h3 : s'.bound = s.bound := by show (if k.request then _ else _ : State C R M P).bound = _; split <;> rfl
  have h4 : s'.manifest = s.manifest := by
    show (if k.request then _ else _ : State C R M P).manifest = _; split <;> rfl
  have h5 : s'.next = s.next := by show (if k.request then _ else _ : State C R M P).next = _; split <;> rfl
  refine ⟨s', by simp only [step, hu, Option.map_some]; rfl, inv.snoc rfl ?_ h2 h3 h4 (fun b i => by rw [h1])
    (fun b i l c g1 g2 => inv.good b i l c (by rw [← h1]; exact g1) g2), ?_⟩
  · rw [isBound_append]
  · refine ⟨fun _ _ _ hE => hE.elim, fun _ _ _ _ hc => (by cases hc), fun _ _ _ _ _ => get_congr (by rw [h1]),
      Nat.le_of_eq h5.symm, ?_, ?_⟩
    · intro k' id' op' heq hr
      cases heq
      refine ⟨o, ho, ?_⟩
      show (if k.request then _ else _ : State C R M P).reqs = _
      rw [if_pos hr]
    · intro hn
      show (if k.request then _ else _ : State C R M P).reqs = _
      rw [hn k id op rfl]; rfl

theorem step_wait (e : Env C R M) {h : List (Call C R P)} {s : State C R M P} (inv : Inv e h s) (i : Nat) (r : Req)
    (hr : s.reqs[i]? = some r) (ha : r.alive s = true) :
    step e s (.wait i) = some s ∧ Inv e (h ++ [.wait i]) s ∧ Change s (.wait i) s := by
  refine ⟨by simp only [step, hr, ha, if_true], inv.snoc rfl ?_ rfl rfl rfl (fun _ _ => rfl) inv.good, ?_⟩
  · rw [isBound_append]
  · exact ⟨fun _ _ _ hE => hE.elim, fun _ _ _ _ hc => (by cases hc), fun _ _ _ _ _ => rfl, Nat.le_refl _,
      fun _ _ _ hc => (by cases hc), fun _ => rfl⟩

/-! ### Histories -/

theorem alive_snoc (h : List (Call C R P)) (c : Call C R P) (k : Kind) (id : Id) (op : Int) (p : P) :
    Spec.Alive (h ++ [c]) k id op p ↔ c = .createOp k id op p ∨ (Spec.Alive h k id op p ∧ ¬ Spec.Ends k id op c) := by
  constructor
  · rintro ⟨h1, h2, he, hn⟩
    rcases List.eq_nil_or_concat h2 with rfl | ⟨h2', c', rfl⟩
    · obtain ⟨-, h3⟩ := List.append_inj' he rfl
      left; simpa using h3
    · right
      rw [List.concat_eq_append] at he hn
      have he' : h ++ [c] = (h1 ++ .createOp k id op p :: h2') ++ [c'] := by rw [he]; simp
      obtain ⟨h3, h4⟩ := List.append_inj' he' rfl
      have h5 : c = c' := by simpa using h4
      subst h5
      exact ⟨⟨h1, h2', h3, fun x hx => hn x (by simp [hx])⟩, hn c (by simp)⟩
  · rintro (rfl | ⟨⟨h1, h2, rfl, hn⟩, hc⟩)
    · exact ⟨h, [], rfl, by simp⟩
    · refine ⟨h1, h2 ++ [c], by simp, fun x hx => ?_⟩
      rcases List.mem_append.mp hx with hx | hx
      · exact hn x hx
      · rw [List.mem_singleton.mp hx]; exact hc

theorem returned_snoc {h : List (Call C R P)} {c : Call C R P} {i : Nat} {k : Kind} {id : Id} {op : Int}
    {h2 : List (Call C R P)} (hr : Spec.Returned (h ++ [c]) i k id op h2) :
    (c = .use k id op ∧ h2 = [] ∧ k.request = true ∧ i = Spec.requests h) ∨
      ∃ h2', h2 = h2' ++ [c] ∧ Spec.Returned h i k id op h2' := by
  obtain ⟨h1, he, hk, hi⟩ := hr
  rcases List.eq_nil_or_concat h2 with rfl | ⟨h2', c', rfl⟩
  · obtain ⟨h3, h4⟩ := List.append_inj' he rfl
    refine Or.inl ⟨by simpa using h4, rfl, by rcases hk with rfl | rfl <;> rfl, by rw [hi, h3]⟩
  · rw [List.concat_eq_append] at he
    have he' : h ++ [c] = (h1 ++ .use k id op :: h2') ++ [c'] := by rw [he]; simp
    obtain ⟨h3, h4⟩ := List.append_inj' he' rfl
    have h5 : c = c' := by simpa using h4
    subst h5
    exact Or.inr ⟨h2', by simp, h1, h3, hk, hi⟩

theorem requests_snoc (h : List (Call C R P)) (c : Call C R P) :
    Spec.requests (h ++ [c]) = Spec.requests h +
      (match c with | .use k _ _ => if k.request then 1 else 0 | _ => 0) := by
  unfold Spec.requests
  rw [List.filter_append, List.length_append]
  congr 1
  cases c with
  | use k id op => cases k <;> rfl
  | _ => rfl

/-- The state fits the history. -/
structure Full (e : Env C R M) (h : List (Call C R P)) (s : State C R M P) : Prop where
  inv : Inv e h s
  alive : ∀ k id op p, Spec.Alive h k id op p ↔ ∃ o, get s k id op = some o ∧ o.params = p
  num : ∀ k id op o, get s k id op = some o → o.num < s.next
  nreq : s.reqs.length = Spec.requests h
  req : ∀ i k id op h2, Spec.Returned h i k id op h2 → ∃ num, s.reqs[i]? = some ⟨k, id, op, num⟩ ∧ num < s.next ∧
    ((∀ c ∈ h2, ¬ Spec.Ends k id op c) → ∃ o, get s k id op = some o ∧ o.num = num) ∧
    ((∃ c ∈ h2, Spec.Ends k id op c) → ∀ o, get s k id op = some o → o.num ≠ num)

theorem Full.snoc {e : Env C R M} {h : List (Call C R P)} {s s' : State C R M P} {c : Call C R P} (f : Full e h s)
    (hi : Inv e (h ++ [c]) s') (ch : Change s c s') : Full e (h ++ [c]) s' := by
  have hgrow : ∀ (i : Nat) r, s.reqs[i]? = some r → s'.reqs[i]? = some r := by
    intro i r hr
    by_cases hu : ∃ k id op, c = .use k id op ∧ k.request = true
    · obtain ⟨k, id, op, rfl, hk⟩ := hu
      obtain ⟨o, -, h2⟩ := ch.req k id op rfl hk
      rw [h2, List.getElem?_append_left (List.getElem?_eq_some_iff.mp hr).1]; exact hr
    · rw [ch.noreq fun k id op hc => by
        by_contra hk
        exact hu ⟨k, id, op, hc, by simpa using hk⟩]
      exact hr
  have after : ∀ k id op o, get s' k id op = some o → get s k id op = some o ∧ ¬ Spec.Ends k id op c ∨
      c = .createOp k id op o.params ∧ o.num = s.next ∧ s.next < s'.next := by
    intro k id op o ho
    by_cases hE : Spec.Ends k id op c
    · rw [ch.ends k id op hE] at ho; cases ho
    · by_cases hm : ∃ p, c = .createOp k id op p
      · obtain ⟨p, rfl⟩ := hm
        obtain ⟨-, o', h1, h2, h3, h4⟩ := ch.made k id op p rfl
        rw [ho] at h1; cases h1
        exact Or.inr ⟨by rw [h2], h3, h4⟩
      · push Not at hm
        rw [ch.kept k id op hE hm] at ho
        exact Or.inl ⟨ho, hE⟩
  have keep : ∀ k id op o, get s k id op = some o → ¬ Spec.Ends k id op c → (∀ p, c ≠ .createOp k id op p) →
      get s' k id op = some o := fun k id op o ho hE hm => by rw [ch.kept k id op hE hm]; exact ho
  refine ⟨hi, ?_, ?_, ?_, ?_⟩
  · intro k id op p
    rw [alive_snoc, f.alive]
    constructor
    · rintro (rfl | ⟨⟨o, h1, h2⟩, hE⟩)
      · obtain ⟨-, o, h1, h2, -⟩ := ch.made k id op p rfl
        exact ⟨o, h1, h2⟩
      · by_cases hm : ∃ p', c = .createOp k id op p'
        · obtain ⟨p', rfl⟩ := hm
          rw [(ch.made k id op p' rfl).1] at h1; cases h1
        · push Not at hm
          exact ⟨o, keep k id op o h1 hE hm, h2⟩
    · rintro ⟨o, h1, h2⟩
      rcases after k id op o h1 with ⟨h3, h4⟩ | ⟨h3, -⟩
      · exact Or.inr ⟨⟨o, h3, h2⟩, h4⟩
      · left; rw [h3, h2]
  · intro k id op o ho
    rcases after k id op o ho with ⟨h3, -⟩ | ⟨-, h3, h4⟩
    · exact Nat.lt_of_lt_of_le (f.num k id op o h3) ch.le
    · rw [h3]; exact h4
  · rw [requests_snoc, ← f.nreq]
    by_cases hu : ∃ k id op, c = .use k id op ∧ k.request = true
    · obtain ⟨k, id, op, rfl, hk⟩ := hu
      obtain ⟨o, -, h2⟩ := ch.req k id op rfl hk
      rw [h2, List.length_append]
      simp [hk]
    · have hnr : ∀ k id op, c = .use k id op → k.request = false := fun k id op hc => by
        by_contra hk
        exact hu ⟨k, id, op, hc, by simpa using hk⟩
      rw [ch.noreq hnr]
      cases c with
      | use k id op => simp [hnr k id op rfl]
      | _ => rfl
  · intro i k id op h2 hr
    rcases returned_snoc hr with ⟨rfl, rfl, hk, rfl⟩ | ⟨h2', rfl, hr'⟩
    · obtain ⟨o, h1, h3⟩ := ch.req k id op rfl hk
      refine ⟨o.num, by rw [h3, ← f.nreq]; simp, Nat.lt_of_lt_of_le (f.num k id op o h1) ch.le, fun _ =>
        ⟨o, keep k id op o h1 (fun h => h) (fun p hc => by cases hc), rfl⟩, by simp⟩
    · obtain ⟨num, r1, r2, r3, r4⟩ := f.req i k id op h2' hr'
      refine ⟨num, hgrow _ _ r1, Nat.lt_of_lt_of_le r2 ch.le, ?_, ?_⟩
      · intro hn
        obtain ⟨o, h1, h3⟩ := r3 fun x hx => hn x (by simp [hx])
        have hE : ¬ Spec.Ends k id op c := hn c (by simp)
        refine ⟨o, keep k id op o h1 hE fun p hc => ?_, h3⟩
        rw [(ch.made k id op p hc).1] at h1; cases h1
      · rintro ⟨x, hx, hxE⟩ o ho
        rcases after k id op o ho with ⟨h3, h4⟩ | ⟨-, h3, -⟩
        · rcases List.mem_append.mp hx with hx | hx
          · exact r4 ⟨x, hx, hxE⟩ o h3
          · rw [List.mem_singleton.mp hx] at hxE; exact absurd hxE h4
        · rw [h3]; exact Nat.ne_of_gt r2

theorem alive_req {s : State C R M P} {k : Kind} {id : Id} {op : Int} {num : Nat} :
    Req.alive s ⟨k, id, op, num⟩ = true ↔ ∃ o, get s k id op = some o ∧ o.num = num := by
  unfold Req.alive get
  cases hl : s.locals k.sideM id with
  | none => simp
  | some l => cases ho : l.ops k op <;> simp [ho]

theorem full_run (e : Env C R M) (h : List (Call C R P)) (hv : Spec.Valid (e.has true) (e.has false) h) :
    ∃ s, run e h = some s ∧ Full e h s := by
  suffices H : ∀ hr : List (Call C R P), Spec.Valid (e.has true) (e.has false) hr.reverse →
      ∃ s, run e hr.reverse = some s ∧ Full e hr.reverse s by
    have := H h.reverse (by rw [List.reverse_reverse]; exact hv)
    rwa [List.reverse_reverse] at this
  intro hr
  induction hr with
  | nil =>
    intro _
    refine ⟨init, rfl, ⟨rfl, rfl, fun _ => rfl, List.nodup_nil, fun _ _ _ => rfl, fun _ _ h1 => (by cases h1),
      fun _ _ _ _ h1 => (by cases h1)⟩, ?_, fun _ _ _ _ h1 => (by cases h1), rfl, ?_⟩
    · intro k id op p
      constructor
      · rintro ⟨h1, h2, he, -⟩; simp at he
      · rintro ⟨o, h1, -⟩; cases h1
    · rintro i k id op h2 ⟨h1, he, -⟩; simp at he
  | cons c hr ih =>
    intro hv
    rw [List.reverse_cons] at hv ⊢
    generalize hr.reverse = h at hv ih ⊢
    have ok := hv h c [] rfl
    obtain ⟨s, hs, f⟩ := ih fun h1 c' h2 he => hv h1 c' (h2 ++ [c]) (by rw [he]; simp)
    have run_snoc : ∀ s', step e s c = some s' → run e (h ++ [c]) = some s' := by
      intro s' h1
      unfold run at hs ⊢
      rw [List.foldlM_append, hs]
      show (step e s c).bind some = _
      rw [h1]; rfl
    have fin : (∃ s', step e s c = some s' ∧ Inv e (h ++ [c]) s' ∧ Change s c s') →
        ∃ s', run e (h ++ [c]) = some s' ∧ Full e (h ++ [c]) s' := by
      rintro ⟨s', h1, h2, h3⟩
      exact ⟨s', run_snoc s' h1, f.snoc h2 h3⟩
    apply fin
    cases c with
    | bind ranks => exact step_bind e f.inv ranks ok
    | unbind => exact step_unbind e f.inv ok
    | destroyComponent => exact step_destroyComponent e f.inv
    | createConns cs ranks => exact step_createConns e f.inv cs ranks ok
    | destroyConns ids => exact step_destroyConns e f.inv ids ok
    | edit es ranks => exact step_edit e f.inv es ranks ok
    | createOp k id op p =>
      obtain ⟨h1, h2, h3, h4⟩ := ok
      refine step_createOp e f.inv k id op p (f.inv.bound.trans h1) (by rw [f.inv.cont]; exact h2)
        (by cases k <;> exact h3) ?_
      cases ho : get s k id op with
      | none => rfl
      | some o => exact absurd ((f.alive k id op o.params).mpr ⟨o, ho, rfl⟩) (h4 _)
    | destroyOp k id op =>
      obtain ⟨p, hp⟩ := ok
      obtain ⟨o, ho, -⟩ := (f.alive k id op p).mp hp
      exact step_destroyOp e f.inv k id op o ho
    | use k id op =>
      obtain ⟨p, hp⟩ := ok
      obtain ⟨o, ho, -⟩ := (f.alive k id op p).mp hp
      exact step_use e f.inv k id op o ho
    | wait i =>
      obtain ⟨k, id, op, h2, hr, hn⟩ := ok
      obtain ⟨num, r1, -, r3, -⟩ := f.req i k id op h2 hr
      exact ⟨s, step_wait e f.inv i _ r1 (alive_req.mpr (r3 hn))⟩

/-! ### C118 -/

/-- C118: in every program that makes permitted calls only,
* nothing undefined happens;
* the queries for the existence of an operation answer whether it was created and nothing has ended its life since;
* an operation that exists works with the map made of the current contents of its connectivity and the current ranks,
  and with the parameters it was created with. -/
theorem C118_operations (e : Env C R M) (h : List (Call C R P))
    (hv : Spec.Valid (e.has true) (e.has false) h) : ∃ s, run e h = some s ∧
    (∀ k id op b, opExists e s k id op = some b → (b = true ↔ ∃ p, Spec.Alive h k id op p)) ∧
    (∀ k id op p, Spec.Alive h k id op p → opExists e s k id op = some true ∧
      ∃ l c num, s.locals k.sideM id = some l ∧ Spec.content h id = some c ∧
        useOp e s k id op = some (e.make k c l.ranks, p, num)) := by
  obtain ⟨s, hs, f⟩ := full_run e h hv
  refine ⟨s, hs, ?_, ?_⟩
  · intro k id op b hb
    unfold opExists at hb
    rw [record_eq e f.inv] at hb
    obtain ⟨l, hl, rfl⟩ := Option.map_eq_some_iff.mp hb
    constructor
    · intro h1
      obtain ⟨o, ho⟩ := Option.isSome_iff_exists.mp h1
      exact ⟨o.params, (f.alive k id op _).mpr ⟨o, by unfold get; rw [hl]; exact ho, rfl⟩⟩
    · rintro ⟨p, hp⟩
      obtain ⟨o, ho, -⟩ := (f.alive k id op p).mp hp
      unfold get at ho; rw [hl] at ho
      rw [show l.ops k op = some o from ho]; rfl
  · intro k id op p hp
    obtain ⟨o, ho, rfl⟩ := (f.alive k id op p).mp hp
    obtain ⟨l, c, h1, h2, h3⟩ := useOp_eq e f.inv k id op o ho
    refine ⟨?_, l, c, o.num, h1, h2, h3⟩
    unfold opExists
    unfold get at ho; rw [h1] at ho
    rw [record_eq e f.inv, h1]
    simp only [Option.map_some]
    rw [show l.ops k op = some o from ho]; rfl

/-- C118: an operation can only be used while it exists, and created only while it does not. -/
theorem C118_gone (e : Env C R M) (h : List (Call C R P)) (hv : Spec.Valid (e.has true) (e.has false) h)
    (k : Kind) (id : Id) (op : Int) :
    ((¬ ∃ p, Spec.Alive h k id op p) → run e (h ++ [.use k id op]) = none ∧ run e (h ++ [.destroyOp k id op]) = none) ∧
    ∀ p, Spec.Alive h k id op p → ∀ q, run e (h ++ [.createOp k id op q]) = none := by
  obtain ⟨s, hs, f⟩ := full_run e h hv
  have run_snoc : ∀ c, run e (h ++ [c]) = step e s c := by
    intro c
    unfold run at hs ⊢
    rw [List.foldlM_append, hs]
    show (step e s c).bind some = _
    cases step e s c <;> rfl
  constructor
  · intro hn
    have hg : get s k id op = none := by
      cases ho : get s k id op with
      | none => rfl
      | some o => exact absurd ⟨o.params, (f.alive k id op _).mpr ⟨o, ho, rfl⟩⟩ hn
    rw [run_snoc, run_snoc]
    unfold get at hg
    constructor
    · simp only [step, useOp, record_eq e f.inv]
      cases hl : s.locals k.sideM id with
      | none => rfl
      | some l => rw [hl] at hg; simp only [Option.bind_some] at hg ⊢; rw [hg]; rfl
    · simp only [step, record_eq e f.inv]
      cases hl : s.locals k.sideM id with
      | none => rfl
      | some l => rw [hl] at hg; simp only [Option.bind_some] at hg ⊢; rw [hg]; rfl
  · intro p hp q
    obtain ⟨o, ho, -⟩ := (f.alive k id op p).mp hp
    obtain ⟨l, hl, hlo⟩ := Option.bind_eq_some_iff.mp ho
    rw [run_snoc]
    simp only [step, record_eq e f.inv, hl, Option.bind_some, hlo, Option.isSome_some, if_true]

/-- C118: waiting for a request is defined exactly if nothing has ended the life of its operation since the request was
returned; creating the operation again does not help. -/
theorem C118_requests (e : Env C R M) (h : List (Call C R P)) (hv : Spec.Valid (e.has true) (e.has false) h)
    (i : Nat) (k : Kind) (id : Id) (op : Int) (h2 : List (Call C R P)) (hr : Spec.Returned h i k id op h2) :
    (run e (h ++ [.wait i])).isSome ↔ ∀ c ∈ h2, ¬ Spec.Ends k id op c := by
  obtain ⟨s, hs, f⟩ := full_run e h hv
  have run_snoc : run e (h ++ [.wait i]) = step e s (.wait i) := by
    unfold run at hs ⊢
    rw [List.foldlM_append, hs]
    show (step e s (.wait i)).bind some = _
    cases step e s (.wait i) <;> rfl
  obtain ⟨num, r1, -, r3, r4⟩ := f.req i k id op h2 hr
  rw [run_snoc]
  simp only [step, r1]
  constructor
  · intro h1 c hc hE
    have ha : Req.alive s ⟨k, id, op, num⟩ = true := by
      by_contra hx
      rw [if_neg hx] at h1; cases h1
    obtain ⟨o, ho, hn⟩ := alive_req.mp ha
    exact r4 ⟨c, hc, hE⟩ o ho hn
  · intro hn
    rw [if_pos (alive_req.mpr (r3 hn))]; rfl

/-! ### Example -/

theorem valid_nil (m n : Id → Bool) : Spec.Valid m n ([] : List (Call C R P)) := by
  intro h1 c h2 he; simp at he

theorem valid_snoc {m n : Id → Bool} {h : List (Call C R P)} {c : Call C R P} (hv : Spec.Valid m n h)
    (ok : Spec.Ok m n h c) : Spec.Valid m n (h ++ [c]) := by
  intro h1 c' h2 he
  rcases List.eq_nil_or_concat h2 with rfl | ⟨h2', c2, rfl⟩
  · obtain ⟨h3, h4⟩ := List.append_inj' he rfl
    have h5 : c = c' := by simpa using h4
    rw [← h3, ← h5]; exact ok
  · rw [List.concat_eq_append] at he
    have he' : h ++ [c] = (h1 ++ c' :: h2') ++ [c2] := by rw [he]; simp
    obtain ⟨h3, -⟩ := List.append_inj' he' rfl
    exact hv h1 c' h2' h3

/-- A process with grid 1 only; a map is the contents with the ranks, and needs as many buffers as there are contents. -/
def exEnv : Env (List Nat) Nat (List Nat × Nat) where
  isLocal g := g == 1
  make _ c r := (c, r)
  sizes m := m.1
  m0 := ([], 0)
  r0 := 0

/-- Connectivity (1,2) with two donors; send 7 is created, used and waited for. -/
def exCalls : List (Call (List Nat) Nat Char) :=
  [.createConns [((1, 2), [3, 4])] (fun _ _ => 0), .bind (fun _ _ => 5), .createOp .send (1, 2) 7 'x',
    .use .send (1, 2) 7, .wait 0]

def exEdit : Call (List Nat) Nat Char := .edit [(((1, 2), [6]), { extents := true })] (fun _ _ => 9)

theorem exValid : Spec.Valid (exEnv.has true) (exEnv.has false) exCalls := by
  have v0 := valid_nil (C := List Nat) (R := Nat) (P := Char) (exEnv.has true) (exEnv.has false)
  have v1 := valid_snoc v0 (c := .createConns [((1, 2), [3, 4])] (fun _ _ => 0)) ⟨by simp, by intro x _; rfl⟩
  have v2 := valid_snoc v1 (c := .bind (fun _ _ => 5)) rfl
  have v3 := valid_snoc v2 (c := .createOp .send (1, 2) 7 'x') ⟨rfl, rfl, rfl, by
    rintro p ⟨h1, h2, he, -⟩
    have : (Call.createOp .send (1, 2) 7 p : Call (List Nat) Nat Char) ∈
        [Call.createConns [((1, 2), [3, 4])] (fun _ _ => 0), .bind (fun _ _ => 5)] := by
      rw [show [Call.createConns [((1, 2), [3, 4])] (fun _ _ => 0), .bind (fun _ _ => 5)] = _ from he]; simp
    simp at this⟩
  have v4 := valid_snoc v3 (c := .use .send (1, 2) 7) ⟨'x', _, [], rfl, by simp⟩
  exact valid_snoc v4 (c := .wait 0) ⟨.send, (1, 2), 7, [], ⟨_, rfl, Or.inl rfl, rfl⟩, by simp⟩

example : ∃ s, run exEnv exCalls = some s ∧ useOp exEnv s .send (1, 2) 7 = some (([3, 4], 5), 'x', 4) ∧
    opExists exEnv s .send (1, 2) 8 = some false ∧ opExists exEnv s .recv (1, 2) 7 = none := by
  refine ⟨(run exEnv exCalls).get (by decide +kernel), by simp, ?_, ?_, ?_⟩ <;> decide +kernel

/-- After an edit the operation is gone and its request cannot be waited for any more, even if the operation is created
again. -/
example : run exEnv (exCalls ++ [exEdit, .use .send (1, 2) 7]) = none ∧
    run exEnv (exCalls ++ [exEdit, .wait 0]) = none ∧
    run exEnv (exCalls ++ [exEdit, .createOp .send (1, 2) 7 'x', .wait 0]) = none ∧
    (run exEnv (exCalls ++ [exEdit, .createOp .send (1, 2) 7 'y'])).bind (fun s => useOp exEnv s .send (1, 2) 7) =
      some (([6], 5), 'y', 7) := by
  refine ⟨?_, ?_, ?_, ?_⟩
  · rw [← Option.isNone_iff_eq_none]; decide +kernel
  · rw [← Option.isNone_iff_eq_none]; decide +kernel
  · rw [← Option.isNone_iff_eq_none]; decide +kernel
  · decide +kernel

end Ovk.XOps
