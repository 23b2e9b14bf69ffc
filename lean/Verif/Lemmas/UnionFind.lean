import Verif.Model.UnionFind
import Verif.Lemmas.Container
import Mathlib.Tactic.SplitIfs
import Mathlib.Tactic.ByContra
/-! Helper lemmas for union-find. -/
namespace Ovk.UF

theorem less_sto : IsSTO less where
  irrefl a := by simp [less]
  trans a b c := by simp only [less, decide_eq_true_eq]; omega
  tri a b := by simp only [less, decide_eq_false_iff_not]; omega

theorem nless_sto : IsSTO nless where
  irrefl a := by simp [nless]
  trans a b c := by simp only [nless, decide_eq_true_eq]; omega
  tri a b := by simp only [nless, decide_eq_false_iff_not]; omega

/-- `r` is the end of the parent chain of `i`. -/
inductive Root (par : List Nat) : Nat → Nat → Prop
  | self {i : Nat} : par[i]? = some i → Root par i i
  | step {i p r : Nat} : par[i]? = some p → p ≠ i → Root par p r → Root par i r

theorem Root.fn {par : List Nat} {i r r' : Nat} (h : Root par i r) (h' : Root par i r') : r = r' := by
  induction h with
  | self hi =>
    cases h' with
    | self => rfl
    | step h1 h2 _ => rw [hi] at h1; cases h1; exact absurd rfl h2
  | step h1 h2 _ ih =>
    cases h' with
    | self hi => rw [hi] at h1; cases h1; exact absurd rfl h2
    | step h3 h4 h5 => rw [h1] at h3; cases h3; exact ih h5

theorem Root.root {par : List Nat} {i r : Nat} (h : Root par i r) : par[r]? = some r := by
  induction h with
  | self hi => exact hi
  | step _ _ _ ih => exact ih

theorem Root.lt {par : List Nat} {i r : Nat} (h : Root par i r) : i < par.length := by
  cases h with
  | self hi => exact (List.getElem?_eq_some_iff.1 hi).1
  | step hi _ _ => exact (List.getElem?_eq_some_iff.1 hi).1

theorem Root.lt' {par : List Nat} {i r : Nat} (h : Root par i r) : r < par.length :=
  (List.getElem?_eq_some_iff.1 h.root).1

/-- Shape of the parent forest: ranks increase towards the root. -/
structure WFp (par rank : List Nat) : Prop where
  len : rank.length = par.length
  bound : ∀ i p : Nat, par[i]? = some p → p < par.length
  incr : ∀ i p a b : Nat, par[i]? = some p → p ≠ i → rank[i]? = some a → rank[p]? = some b → a < b

theorem getElem?_of_lt {l : List α} {i : Nat} (h : i < l.length) : ∃ x, l[i]? = some x :=
  ⟨l[i], List.getElem?_eq_getElem h⟩

theorem countP_lt {p q : α → Bool} : ∀ {l : List α}, (∀ x ∈ l, p x = true → q x = true) →
    (∃ x ∈ l, q x = true ∧ p x = false) → l.countP p < l.countP q := by
  intro l
  induction l with
  | nil => intro _ ⟨x, hx, _⟩; simp at hx
  | cons y l ih =>
    intro himp ⟨x, hx, hq, hp⟩
    have hle : l.countP p ≤ l.countP q :=
      List.countP_mono_left (fun z hz => himp z (List.mem_cons_of_mem _ hz))
    simp only [List.countP_cons]
    rcases List.mem_cons.1 hx with rfl | hx
    · simp [hq, hp]; omega
    · have := ih (fun z hz => himp z (List.mem_cons_of_mem _ hz)) ⟨x, hx, hq, hp⟩
      have hy := himp y (by simp)
      cases hpy : p y
      · simp; omega
      · simp [hy hpy]; omega

/-- Number of strictly larger ranks. -/
def mu (rank : List Nat) (a : Nat) : Nat := rank.countP (fun x => decide (a < x))

theorem mu_lt {rank : List Nat} {a b : Nat} (hab : a < b) (hb : b ∈ rank) : mu rank b < mu rank a :=
  countP_lt (by intro x _; simp only [decide_eq_true_eq]; omega) ⟨b, hb, by simp [hab]⟩

theorem mu_le (rank : List Nat) (a : Nat) : mu rank a ≤ rank.length := List.countP_le_length

theorem WFp.total {par rank : List Nat} (h : WFp par rank) {i : Nat} (hi : i < par.length) :
    ∃ r, Root par i r := by
  obtain ⟨a, ha⟩ := getElem?_of_lt (l := rank) (i := i) (by rw [h.len]; exact hi)
  generalize hm : mu rank a = m
  induction m using Nat.strongRecOn generalizing i a with
  | _ m ih =>
    obtain ⟨p, hp⟩ := getElem?_of_lt hi
    by_cases hpi : p = i
    · subst hpi; exact ⟨p, .self hp⟩
    · have hpl := h.bound _ _ hp
      obtain ⟨b, hb⟩ := getElem?_of_lt (l := rank) (i := p) (by rw [h.len]; exact hpl)
      have hab := h.incr _ _ _ _ hp hpi ha hb
      obtain ⟨r, hr⟩ := ih _ (hm ▸ mu_lt hab (List.mem_of_getElem? hb)) hpl b hb rfl
      exact ⟨r, .step hp hpi hr⟩

theorem WFp.rank_lt {par rank : List Nat} (h : WFp par rank) {i r : Nat} (hr : Root par i r) :
    i ≠ r → ∀ a b, rank[i]? = some a → rank[r]? = some b → a < b := by
  induction hr with
  | self _ => intro h; exact absurd rfl h
  | @step i p r hp hpi hpr ih =>
    intro _ a b ha hb
    obtain ⟨c, hc⟩ := getElem?_of_lt (l := rank) (i := p) (by rw [h.len]; exact hpr.lt)
    have h1 := h.incr _ _ _ _ hp hpi ha hc
    by_cases hpr' : p = r
    · subst hpr'; rw [hc] at hb; cases hb; exact h1
    · have := ih hpr' c b hc hb; omega

/-- Pointing `i` at its root keeps all roots. -/
theorem root_compress {par rank : List Nat} (h : WFp par rank) {i r : Nat} (hr : Root par i r) :
    WFp (par.set i r) rank ∧ ∀ j x, Root (par.set i r) j x ↔ Root par j x := by
  have hil := hr.lt
  have hwf : WFp (par.set i r) rank := by
    refine ⟨by simp [h.len], ?_, ?_⟩
    · intro j p hp
      rw [List.getElem?_set] at hp
      split_ifs at hp with h1
      · simp at hp; subst hp; simpa using hr.lt'
      · simpa using h.bound _ _ hp
    · intro j p a b hp hpj ha hb
      rw [List.getElem?_set] at hp
      split_ifs at hp with h1
      · simp at hp; subst hp; subst h1
        exact h.rank_lt hr (fun e => hpj e.symm) _ _ ha hb
      · exact h.incr _ _ _ _ hp hpj ha hb
  have fwd : ∀ j x, Root par j x → Root (par.set i r) j x := by
    intro j x hx
    induction hx with
    | @self j hj =>
      by_cases hji : j = i
      · subst hji
        have : r = j := hr.fn (.self hj)
        subst this
        exact .self (by rw [List.getElem?_set]; simp [hil])
      · exact .self (by rw [List.getElem?_set_ne (Ne.symm hji)]; exact hj)
    | @step j p x hp hpj hpx ih =>
      by_cases hji : j = i
      · subst hji
        have hxr : r = x := hr.fn (.step hp hpj hpx)
        subst hxr
        have hrj : r ≠ j := by
          rintro rfl; have := hpx.root; rw [hp] at this; cases this; exact hpj rfl
        refine .step (by rw [List.getElem?_set]; simp [hil]) hrj (.self ?_)
        rw [List.getElem?_set_ne (Ne.symm hrj)]; exact hr.root
      · exact .step (by rw [List.getElem?_set_ne (Ne.symm hji)]; exact hp) hpj ih
  refine ⟨hwf, fun j x => ⟨fun hx => ?_, fwd j x⟩⟩
  obtain ⟨y, hy⟩ := h.total (i := j) (by simpa using hx.lt)
  have := hx.fn (fwd j y hy); subst this; exact hy

theorem findGo_spec {rank : List Nat} : ∀ (fuel : Nat) (par : List Nat) (i a : Nat), WFp par rank →
    rank[i]? = some a → mu rank a < fuel →
    ∃ par' r, findGo fuel par i = some (par', r) ∧ Root par i r ∧ WFp par' rank ∧
      par'.length = par.length ∧ (∀ j x, Root par' j x ↔ Root par j x) ∧ par'[i]? = some r ∧
      (∀ j x : Nat, par[j]? = some x → par[x]? = some x → par'[j]? = some x) := by
  intro fuel
  induction fuel with
  | zero => intro par i a _ _ h; omega
  | succ fuel ih =>
    intro par i a h ha hmu
    have hil : i < par.length := by rw [← h.len]; exact (List.getElem?_eq_some_iff.1 ha).1
    obtain ⟨p, hp⟩ := getElem?_of_lt hil
    by_cases hpi : p = i
    · subst hpi
      exact ⟨par, p, by simp [findGo, hp], .self hp, h, rfl, fun _ _ => Iff.rfl, hp, fun _ _ h _ => h⟩
    · have hpl := h.bound _ _ hp
      obtain ⟨b, hb⟩ := getElem?_of_lt (l := rank) (i := p) (by rw [h.len]; exact hpl)
      have hab := h.incr _ _ _ _ hp hpi ha hb
      obtain ⟨par', r, he, hroot, hwf, hlen, hiff, -, hkeep⟩ :=
        ih par p b h hb (by have := mu_lt hab (List.mem_of_getElem? hb); omega)
      have hri : Root par i r := .step hp hpi hroot
      have hri' := (hiff i r).2 hri
      obtain ⟨hw2, hiff2⟩ := root_compress hwf hri'
      refine ⟨par'.set i r, r, by simp [findGo, hp, hpi, he], hri, hw2, by simp [hlen],
        fun j x => (hiff2 j x).trans (hiff j x), ?_, ?_⟩
      · rw [List.getElem?_set]; simp [hlen, hil]
      · intro j x hj hx
        rw [List.getElem?_set]
        split_ifs with h1
        · subst h1
          rw [hp] at hj; cases hj
          have : r = p := hroot.fn (.self hx)
          simp [this]
        · omega
        · exact hkeep j x hj hx

/-- Pointing the root `x` at another root `y`. -/
theorem root_link {par : List Nat} {x y : Nat} (hx : par[x]? = some x) (hy : par[y]? = some y)
    (hxy : x ≠ y) : ∀ j r, Root par j r → Root (par.set x y) j (if r = x then y else r) := by
  have hxl : x < par.length := (List.getElem?_eq_some_iff.1 hx).1
  have hyy : Root (par.set x y) y y := .self (by rw [List.getElem?_set_ne hxy]; exact hy)
  intro j r h
  induction h with
  | @self j hj =>
    split_ifs with h1
    · subst h1
      exact .step (by rw [List.getElem?_set]; simp [hxl]) (Ne.symm hxy) hyy
    · exact .self (by rw [List.getElem?_set_ne (Ne.symm h1)]; exact hj)
  | @step j p r hp hpj hpr ih =>
    have hjx : j ≠ x := by rintro rfl; rw [hx] at hp; cases hp; exact hpj rfl
    exact .step (by rw [List.getElem?_set_ne (Ne.symm hjx)]; exact hp) hpj ih

/-- Abstract union-find state (`rep`: representative, `rk`: rank of a representative). -/
structure Abs where
  rep : Int → Int
  rk : Int → Nat

/-- Abstract initial state. -/
def Abs.init : Abs := ⟨id, fun _ => 0⟩

/-- Abstract union by rank. -/
def Abs.union (A : Abs) (a b : Int) : Abs :=
  let l := A.rep a
  let r := A.rep b
  if l = r then A
  else if A.rk l < A.rk r then ⟨fun x => if A.rep x = l then r else A.rep x, A.rk⟩
  else if A.rk l > A.rk r then ⟨fun x => if A.rep x = r then l else A.rep x, A.rk⟩
  else ⟨fun x => if A.rep x = r then l else A.rep x, fun x => if x = l then A.rk l + 1 else A.rk x⟩

/-- The concrete state represents the abstract one. -/
structure Ref (s : UF) (A : Abs) : Prop where
  sorted : Sorted less s.elems
  len : s.par.length = s.elems.length
  wf : WFp s.par s.rank
  rep : ∀ (i r : Nat) (e : Int), s.elems[i]? = some e → Root s.par i r → s.elems[r]? = some (A.rep e)
  rk : ∀ (r : Nat) (e : Int), s.elems[r]? = some e → s.par[r]? = some r → s.rank[r]? = some (A.rk e)
  orep : ∀ e, e ∉ s.elems → A.rep e = e
  ork : ∀ e, e ∉ s.elems → A.rk e = 0

theorem Ref.init : Ref UF.empty Abs.init := by
  refine ⟨List.Pairwise.nil, rfl, ⟨rfl, ?_, ?_⟩, ?_, ?_, ?_, ?_⟩ <;> simp [UF.empty, Abs.init]

theorem sorted_inj {l : List Int} (h : Sorted less l) {i j : Nat} {e : Int} (hi : l[i]? = some e)
    (hj : l[j]? = some e) : i = j := by
  obtain ⟨hil, hi⟩ := List.getElem?_eq_some_iff.1 hi
  obtain ⟨hjl, hj⟩ := List.getElem?_eq_some_iff.1 hj
  rcases Nat.lt_trichotomy i j with h1 | h1 | h1
  · have := List.pairwise_iff_getElem.1 h i j hil hjl h1
    rw [hi, hj] at this; simp [less] at this
  · exact h1
  · have := List.pairwise_iff_getElem.1 h j i hjl hil h1
    rw [hi, hj] at this; simp [less] at this

/-- The representative of a stored element is stored and is its own representative. -/
theorem Ref.rep_mem {s : UF} {A : Abs} (h : Ref s A) {e : Int} (he : e ∈ s.elems) :
    A.rep e ∈ s.elems ∧ A.rep (A.rep e) = A.rep e := by
  obtain ⟨i, hi⟩ := List.mem_iff_getElem?.1 he
  have hil : i < s.par.length := by rw [h.len]; exact (List.getElem?_eq_some_iff.1 hi).1
  obtain ⟨r, hr⟩ := h.wf.total hil
  have h1 := h.rep _ _ _ hi hr
  refine ⟨List.mem_of_getElem? h1, ?_⟩
  have h2 := h.rep _ _ _ h1 (.self hr.root)
  rw [h1] at h2; exact (Option.some.inj h2).symm

theorem Ref.rep_rep {s : UF} {A : Abs} (h : Ref s A) (e : Int) : A.rep (A.rep e) = A.rep e := by
  by_cases he : e ∈ s.elems
  · exact (h.rep_mem he).2
  · rw [h.orep e he, h.orep e he]

theorem Ref.rep_mem_iff {s : UF} {A : Abs} (h : Ref s A) {e : Int} :
    A.rep e ∈ s.elems ↔ e ∈ s.elems := by
  constructor
  · intro h1; by_contra h2; rw [h.orep e h2] at h1; exact h2 h1
  · intro h1; exact (h.rep_mem h1).1

theorem Ref.findIdx {s : UF} {A : Abs} (h : Ref s A) {i : Nat} (hi : i < s.elems.length) :
    ∃ s' r, s.findIdx i = some (s', r) ∧ Ref s' A ∧ s'.elems = s.elems ∧ s'.rank = s.rank ∧
      (∀ j x, Root s'.par j x ↔ Root s.par j x) ∧ Root s'.par i r ∧ s'.par[i]? = some r ∧
      (∀ j x : Nat, s.par[j]? = some x → s.par[x]? = some x → s'.par[j]? = some x) := by
  obtain ⟨a, ha⟩ := getElem?_of_lt (l := s.rank) (i := i) (by rw [h.wf.len, h.len]; exact hi)
  obtain ⟨par', r, he, hroot, hwf, hlen, hiff, hir, hkeep⟩ :=
    findGo_spec (s.par.length + 1) s.par i a h.wf ha
      (by have := mu_le s.rank a; rw [h.wf.len] at this; omega)
  refine ⟨⟨s.elems, par', s.rank⟩, r, by simp [UF.findIdx, he], ?_, rfl, rfl, hiff,
    (hiff _ _).2 hroot, hir, hkeep⟩
  refine ⟨h.sorted, by simp [hlen, h.len], hwf, ?_, ?_, h.orep, h.ork⟩
  · intro j x e hj hx; exact h.rep j x e hj ((hiff _ _).1 hx)
  · intro j e hj hx
    refine h.rk j e hj ?_
    exact ((hiff j j).1 (.self hx)).root

theorem position_mem {s : UF} {A : Abs} (h : Ref s A) {e : Int} (he : e ∈ s.elems) :
    ∃ i, s.position e = some i ∧ s.elems[i]? = some e := by
  have h1 := oset_find_mem less_sto h.sorted e he
  refine ⟨_, ?_, h1⟩
  simp only [position]
  rw [if_pos (List.getElem?_eq_some_iff.1 h1).1]

theorem position_absent {s : UF} {A : Abs} (h : Ref s A) {e : Int} (he : e ∉ s.elems) :
    s.position e = none := by
  simp only [position, oset_find_absent less_sto h.sorted e he]
  simp

theorem Ref.find {s : UF} {A : Abs} (h : Ref s A) {e : Int} (he : e ∈ s.elems) :
    ∃ s', s.find e = some (s', A.rep e) ∧ Ref s' A ∧ s'.elems = s.elems := by
  obtain ⟨i, hp, hi⟩ := position_mem h he
  obtain ⟨s', r, hf, hR, hel, hrk, hiff, hroot, _⟩ := h.findIdx (List.getElem?_eq_some_iff.1 hi).1
  refine ⟨s', ?_, hR, hel⟩
  have h2 := hR.rep i r e (by rw [hel]; exact hi) hroot
  simp [UF.find, hp, hf, h2]

theorem Ref.find_absent {s : UF} {A : Abs} (h : Ref s A) {e : Int} (he : e ∉ s.elems) :
    s.find e = some (s, -1) := by
  simp [UF.find, position_absent h he]

/-- Linking two roots with the ranks ordered. -/
theorem Ref.link {s : UF} {A : Abs} (h : Ref s A) {x y : Nat} {ex ey : Int} {rk' : Int → Nat}
    {rank' : List Nat}
    (hx : s.par[x]? = some x) (hy : s.par[y]? = some y) (hxy : x ≠ y)
    (hex : s.elems[x]? = some ex) (hey : s.elems[y]? = some ey)
    (hlen : rank'.length = s.rank.length)
    (hsame : ∀ j : Nat, j ≠ y → rank'[j]? = s.rank[j]?)
    (hge : ∀ a b, s.rank[y]? = some a → rank'[y]? = some b → a ≤ b)
    (hlt : ∀ a b, rank'[x]? = some a → rank'[y]? = some b → a < b)
    (hrk : ∀ e, e ≠ ey → rk' e = A.rk e) (hrky : rank'[y]? = some (rk' ey)) :
    Ref ⟨s.elems, s.par.set x y, rank'⟩ ⟨fun e => if A.rep e = ex then ey else A.rep e, rk'⟩ := by
  have hxl : x < s.par.length := (List.getElem?_eq_some_iff.1 hx).1
  have hyl : y < s.par.length := (List.getElem?_eq_some_iff.1 hy).1
  have hyx : y ≠ x := Ne.symm hxy
  refine ⟨h.sorted, by simp [h.len], ⟨by simp [hlen, h.wf.len], ?_, ?_⟩, ?_, ?_, ?_, ?_⟩
  · intro j p hp
    rw [List.getElem?_set] at hp
    split_ifs at hp with h1
    · simp at hp; subst hp; simpa using hyl
    · simpa using h.wf.bound _ _ hp
  · intro j p a b hp hpj ha hb
    dsimp only at hp ha hb
    rw [List.getElem?_set] at hp
    split_ifs at hp with h1
    · simp at hp; subst hp; subst h1; exact hlt _ _ ha hb
    · have hjy : j ≠ y := by
        rintro rfl; rw [hy] at hp; cases hp; exact hpj rfl
      rw [hsame j hjy] at ha
      by_cases hpy : p = y
      · subst hpy
        obtain ⟨c, hc⟩ := getElem?_of_lt (l := s.rank) (i := p) (by rw [h.wf.len]; exact hyl)
        have := h.wf.incr _ _ _ _ hp hpj ha hc
        have := hge _ _ hc hb
        omega
      · rw [hsame p hpy] at hb
        exact h.wf.incr _ _ _ _ hp hpj ha hb
  · intro j r e hj hr
    dsimp only at hj hr ⊢
    have hjl : j < s.par.length := by rw [h.len]; exact (List.getElem?_eq_some_iff.1 hj).1
    obtain ⟨r0, hr0⟩ := h.wf.total hjl
    have := hr.fn (root_link hx hy hxy _ _ hr0)
    subst this
    have h1 := h.rep _ _ _ hj hr0
    by_cases hrx : r0 = x
    · subst hrx
      rw [hex] at h1
      have : A.rep e = ex := (Option.some.inj h1).symm
      simp [this, hey]
    · have : A.rep e ≠ ex := by
        rintro h2; rw [h2] at h1; exact hrx (sorted_inj h.sorted h1 hex)
      simp [hrx, this, h1]
  · intro r e hr hp
    dsimp only at hr hp ⊢
    by_cases hry : r = y
    · subst hry; rw [hey] at hr; cases hr; exact hrky
    · have hrx : r ≠ x := by
        rintro rfl
        rw [List.getElem?_set] at hp
        simp [hxl] at hp
        exact hry hp.symm
      rw [List.getElem?_set_ne (Ne.symm hrx)] at hp
      have hne : e ≠ ey := by rintro rfl; exact hry (sorted_inj h.sorted hr hey)
      rw [hsame r hry, hrk e hne]
      exact h.rk _ _ hr hp
  · intro e he
    dsimp only at he ⊢
    have h1 := h.orep e he
    have : e ≠ ex := by rintro rfl; exact he (List.mem_of_getElem? hex)
    simp [h1, this]
  · intro e he
    dsimp only at he ⊢
    have : e ≠ ey := by rintro rfl; exact he (List.mem_of_getElem? hey)
    rw [hrk e this, h.ork e he]

theorem Ref.union {s : UF} {A : Abs} (h : Ref s A) {a b : Int} (ha : a ∈ s.elems)
    (hb : b ∈ s.elems) :
    ∃ s', s.union a b = some (s', (A.union a b).rep a) ∧ Ref s' (A.union a b) ∧
      s'.elems = s.elems := by
  obtain ⟨i, hpi, hi⟩ := position_mem h ha
  obtain ⟨j, hpj, hj⟩ := position_mem h hb
  obtain ⟨s1, rl, hf1, hR1, hel1, hrk1, hiff1, hroot1, _⟩ :=
    h.findIdx (List.getElem?_eq_some_iff.1 hi).1
  obtain ⟨s2, rr, hf2, hR2, hel2, hrk2, hiff2, hroot2, _⟩ :=
    hR1.findIdx (i := j) (by rw [hel1]; exact (List.getElem?_eq_some_iff.1 hj).1)
  have hrootl := (hiff2 _ _).2 hroot1
  have hel := hR2.rep i rl a (by rw [hel2, hel1]; exact hi) hrootl
  have her := hR2.rep j rr b (by rw [hel2, hel1]; exact hj) hroot2
  have hkl := hR2.rk rl _ hel hrootl.root
  have hkr := hR2.rk rr _ her hroot2.root
  have hrl : s2.par[rl]? = some rl := hrootl.root
  have hrr : s2.par[rr]? = some rr := hroot2.root
  have hel3 : s2.elems = s.elems := hel2.trans hel1
  have hrlr : rr < s2.rank.length := by rw [hR2.wf.len]; exact hroot2.lt'
  have hrll : rl < s2.rank.length := by rw [hR2.wf.len]; exact hrootl.lt'
  by_cases hlr : rl = rr
  · have hrep : A.rep a = A.rep b := by
      subst hlr; rw [hel] at her; exact Option.some.inj her
    refine ⟨s2, ?_, ?_, hel3⟩
    · simp [UF.union, hpi, hpj, hf1, hf2, hlr, Abs.union, hrep, her]
    · simpa [Abs.union, hrep] using hR2
  · have hrep : A.rep a ≠ A.rep b := by
      intro he; rw [← he] at her; exact hlr (sorted_inj hR2.sorted hel her)
    by_cases h1 : A.rk (A.rep a) < A.rk (A.rep b)
    · refine ⟨⟨s2.elems, s2.par.set rl rr, s2.rank⟩, ?_, ?_, hel3⟩
      · simp [UF.union, hpi, hpj, hf1, hf2, hlr, Abs.union, hrep, her, hel, hkl, hkr, h1]
      · have := hR2.link (rk' := A.rk) (rank' := s2.rank) hrl hrr hlr hel her rfl (fun _ _ => rfl)
          (by intro a b h1 h2; rw [h1] at h2; cases h2; exact Nat.le_refl _)
          (by intro a b h1 h2; rw [hkl] at h1; rw [hkr] at h2; cases h1; cases h2; assumption)
          (fun _ _ => rfl) hkr
        simpa [Abs.union, hrep, h1] using this
    · by_cases h2 : A.rk (A.rep a) > A.rk (A.rep b)
      · refine ⟨⟨s2.elems, s2.par.set rr rl, s2.rank⟩, ?_, ?_, hel3⟩
        · simp [UF.union, hpi, hpj, hf1, hf2, hlr, Abs.union, hrep, her, hel, hkl, hkr, h1, h2]
        · have := hR2.link (rk' := A.rk) (rank' := s2.rank) hrr hrl (Ne.symm hlr) her hel rfl
            (fun _ _ => rfl)
            (by intro a b h1 h2; rw [h1] at h2; cases h2; exact Nat.le_refl _)
            (by intro a b h1 h2; rw [hkr] at h1; rw [hkl] at h2; cases h1; cases h2; assumption)
            (fun _ _ => rfl) hkl
          simpa [Abs.union, hrep, h1, h2] using this
      · have heq : A.rk (A.rep a) = A.rk (A.rep b) := by omega
        refine ⟨⟨s2.elems, s2.par.set rr rl, s2.rank.set rl (A.rk (A.rep a) + 1)⟩, ?_, ?_, hel3⟩
        · simp [UF.union, hpi, hpj, hf1, hf2, hlr, Abs.union, hrep, her, hel, hkl, hkr, heq]
        · have := hR2.link (rk' := fun x => if x = A.rep a then A.rk (A.rep a) + 1 else A.rk x)
            (rank' := s2.rank.set rl (A.rk (A.rep a) + 1)) hrr hrl (Ne.symm hlr) her hel (by simp)
            (by intro j hj; rw [List.getElem?_set_ne (Ne.symm hj)])
            (by
              intro x y h1 h2
              rw [hkl] at h1; rw [List.getElem?_set_self hrll] at h2
              cases h1; cases h2; omega)
            (by
              intro x y h1 h2
              rw [List.getElem?_set_ne hlr, hkr] at h1
              rw [List.getElem?_set_self hrll] at h2
              cases h1; cases h2; omega)
            (by intro e he; simp [he])
            (by rw [List.getElem?_set_self hrll]; simp)
          simpa [Abs.union, hrep, h1, h2] using this

/-- A union naming an absent element changes nothing but paths. -/
theorem Ref.union_absent {s : UF} {A : Abs} (h : Ref s A) {a b : Int}
    (hab : a ∉ s.elems ∨ b ∉ s.elems) :
    ∃ s' x, s.union a b = some (s', x) ∧ Ref s' A ∧ s'.elems = s.elems := by
  by_cases ha : a ∈ s.elems
  · have hb : b ∉ s.elems := hab.resolve_left (fun h => h ha)
    obtain ⟨i, hpi, hi⟩ := position_mem h ha
    obtain ⟨s', hf, hR, hel⟩ := h.find ha
    exact ⟨s', A.rep a, by simp [UF.union, hpi, position_absent h hb, hf], hR, hel⟩
  · by_cases hb : b ∈ s.elems
    · obtain ⟨i, hpi, hi⟩ := position_mem h hb
      obtain ⟨s', hf, hR, hel⟩ := h.find hb
      exact ⟨s', A.rep b, by simp [UF.union, hpi, position_absent h ha, hf], hR, hel⟩
    · exact ⟨s, -1, by simp [UF.union, position_absent h ha, position_absent h hb], h, rfl⟩

theorem getElem?_insertIdx_shift {l : List α} {k : Nat} (_hk : k ≤ l.length) (v : α) (j : Nat) :
    (l.insertIdx k v)[shiftAt k j]? = l[j]? := by
  unfold shiftAt
  split_ifs with h
  · rw [List.getElem?_insertIdx_of_gt (by omega)]; simp
  · rw [List.getElem?_insertIdx_of_lt (by omega)]

theorem getElem?_insertIdx_at {l : List α} {k : Nat} (hk : k ≤ l.length) (v : α) :
    (l.insertIdx k v)[k]? = some v := by
  rw [List.getElem?_insertIdx_self]; simp [hk]

theorem shiftAt_surj (k j : Nat) (hj : j ≠ k) : ∃ i, shiftAt k i = j := by
  unfold shiftAt
  by_cases h : j < k
  · exact ⟨j, by simp; omega⟩
  · exact ⟨j - 1, by split_ifs <;> omega⟩

theorem shiftAt_inj (k i j : Nat) (h : shiftAt k i = shiftAt k j) : i = j := by
  unfold shiftAt at h; split_ifs at h <;> omega

theorem shiftAt_ne (k i : Nat) : shiftAt k i ≠ k := by unfold shiftAt; split_ifs <;> omega

theorem Ref.insert {s : UF} {A : Abs} (h : Ref s A) (e : Int) :
    Ref (s.insert e) A ∧ ∀ x, x ∈ (s.insert e).elems ↔ x = e ∨ x ∈ s.elems := by
  by_cases he : e ∈ s.elems
  · have hs : s.insert e = s := by
      unfold UF.insert
      rcases look less_sto h.sorted e with ⟨a, b, hl, hlb, ha, hb⟩ | ⟨a, b, hl, hlb, ha, hb⟩
      · exfalso
        rw [hl] at he
        rcases List.mem_append.1 he with he | he
        · have := ha e he; simp [less] at this
        · have := hb e he; simp [less] at this
      · simp only [hlb]
        have : s.elems[a.length]? = some e := by rw [hl]; simp
        simp [this]
    rw [hs]
    exact ⟨h, fun x => ⟨Or.inr, fun hx => hx.elim (fun h => h ▸ he) id⟩⟩
  · -- a new position
    generalize hk : OSet.lowerBound less s.elems e = k
    have hkl : k ≤ s.elems.length := by
      rcases look less_sto h.sorted e with ⟨a, b, hl, hlb, _, _⟩ | ⟨a, b, hl, hlb, _, _⟩ <;>
      · rw [← hk, hlb, hl]; simp
    have hins := oset_insert_spec less_sto h.sorted e
    have hel : OSet.insertAt less s.elems k e = s.elems.insertIdx k e := by
      unfold OSet.insertAt
      rcases look less_sto h.sorted e with ⟨a, b, hl, hlb, ha, hb⟩ | ⟨a, b, hl, hlb, _, _⟩
      · have : s.elems[k]? = b[0]? := by
          rw [← hk, hlb, hl, List.getElem?_append_right (Nat.le_refl _), Nat.sub_self]
        rw [this]
        cases b with
        | nil => simp
        | cons x b => have := hb x (by simp); simp only [List.getElem?_cons_zero, this, if_true]
      · exfalso; apply he; rw [hl]; simp
    have hs : s.insert e = ⟨s.elems.insertIdx k e, (s.par.map (shiftAt k)).insertIdx k k,
        s.rank.insertIdx k 0⟩ := by
      unfold UF.insert
      simp only [hk, hel]
      rcases look less_sto h.sorted e with ⟨a, b, hl, hlb, ha, hb⟩ | ⟨a, b, hl, hlb, _, _⟩
      · have : s.elems[k]? = b[0]? := by
          rw [← hk, hlb, hl, List.getElem?_append_right (Nat.le_refl _), Nat.sub_self]
        rw [this]
        cases b with
        | nil => simp
        | cons x b =>
          have := hb x (by simp)
          have : x > e := by simpa [less] using this
          simp [this]
      · exfalso; apply he; rw [hl]; simp
    have hins' : OSet.insert less s.elems e = s.elems.insertIdx k e := by
      unfold OSet.insert; rw [hk, hel]
    rw [hins'] at hins
    rw [hs]
    have hkp : k ≤ (s.par.map (shiftAt k)).length := by simp [h.len, hkl]
    have hkr : k ≤ s.rank.length := by rw [h.wf.len, h.len]; exact hkl
    have pk : ((s.par.map (shiftAt k)).insertIdx k k)[k]? = some k := getElem?_insertIdx_at hkp k
    have ps : ∀ j, ((s.par.map (shiftAt k)).insertIdx k k)[shiftAt k j]? =
        (s.par[j]?).map (shiftAt k) := by
      intro j; rw [getElem?_insertIdx_shift hkp]; simp
    have rs : ∀ j, (s.rank.insertIdx k 0)[shiftAt k j]? = s.rank[j]? :=
      fun j => getElem?_insertIdx_shift hkr 0 j
    have es : ∀ j, (s.elems.insertIdx k e)[shiftAt k j]? = s.elems[j]? :=
      fun j => getElem?_insertIdx_shift hkl e j
    have ek : (s.elems.insertIdx k e)[k]? = some e := getElem?_insertIdx_at hkl e
    have rootS : ∀ j r, Root s.par j r →
        Root ((s.par.map (shiftAt k)).insertIdx k k) (shiftAt k j) (shiftAt k r) := by
      intro j r hr
      induction hr with
      | self hj => exact .self (by rw [ps, hj]; rfl)
      | step hp hpj _ ih =>
        exact .step (by rw [ps, hp]; rfl) (fun hc => hpj (shiftAt_inj _ _ _ hc)) ih
    have hplen : ((s.par.map (shiftAt k)).insertIdx k k).length = s.par.length + 1 := by
      rw [List.length_insertIdx_of_le_length hkp]; simp
    refine ⟨⟨hins.1, ?_, ⟨?_, ?_, ?_⟩, ?_, ?_, ?_, ?_⟩, hins.2⟩
    · dsimp only; rw [hplen, List.length_insertIdx_of_le_length hkl, h.len]
    · dsimp only; rw [hplen, List.length_insertIdx_of_le_length hkr, h.wf.len]
    · intro i p hp
      dsimp only at hp ⊢
      rw [hplen]
      by_cases hik : i = k
      · subst hik; rw [pk] at hp; cases hp; rw [h.len]; omega
      · obtain ⟨j, rfl⟩ := shiftAt_surj k i hik
        rw [ps] at hp
        obtain ⟨q, hq, rfl⟩ := Option.map_eq_some_iff.1 hp
        have := h.wf.bound _ _ hq
        unfold shiftAt; split_ifs <;> omega
    · intro i p a b hp hpi ha hb
      dsimp only at hp ha hb
      by_cases hik : i = k
      · subst hik; rw [pk] at hp; cases hp; exact absurd rfl hpi
      · obtain ⟨j, rfl⟩ := shiftAt_surj k i hik
        rw [ps] at hp
        obtain ⟨q, hq, rfl⟩ := Option.map_eq_some_iff.1 hp
        rw [rs] at ha hb
        exact h.wf.incr _ _ _ _ hq (fun hc => hpi (by rw [hc])) ha hb
    · intro i r x hi hr
      dsimp only at hi hr ⊢
      by_cases hik : i = k
      · subst hik
        have := hr.fn (.self pk); subst this
        rw [ek] at hi; cases hi
        rw [ek, h.orep _ he]
      · obtain ⟨j, rfl⟩ := shiftAt_surj k i hik
        rw [es] at hi
        obtain ⟨r0, hr0⟩ := h.wf.total (i := j)
          (by rw [h.len]; exact (List.getElem?_eq_some_iff.1 hi).1)
        have := hr.fn (rootS _ _ hr0); subst this
        rw [es]; exact h.rep _ _ _ hi hr0
    · intro r x hx hr
      dsimp only at hx hr ⊢
      by_cases hik : r = k
      · subst hik
        rw [ek] at hx; cases hx
        rw [getElem?_insertIdx_at hkr, h.ork _ he]
      · obtain ⟨j, rfl⟩ := shiftAt_surj k r hik
        rw [es] at hx; rw [rs]
        rw [ps] at hr
        obtain ⟨q, hq, hqj⟩ := Option.map_eq_some_iff.1 hr
        have := shiftAt_inj _ _ _ hqj; subst this
        exact h.rk _ _ hx hq
    · intro x hx
      exact h.orep x (fun hc => hx ((hins.2 x).2 (Or.inr hc)))
    · intro x hx
      exact h.ork x (fun hc => hx ((hins.2 x).2 (Or.inr hc)))

end Ovk.UF
