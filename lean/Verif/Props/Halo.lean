/-
Property C20: halo exchange.
-/
import Verif.Model.Halo
import Verif.Lemmas.FieldIndex
import Verif.Props.Components
import Verif.Model.Decomp

namespace Ovk
namespace Spec
variable {d : Nat}

/-- The point that holds the original of `p`: `p` itself if it is in the index space, otherwise its
periodic image in the first period. -/
def Home (c : Cart d) (p q : Tup d) : Prop :=
  pts c.range q ∧ (pts c.range p → q = p) ∧
  (¬ pts c.range p → SamePoint c p q ∧
    ∀ i, c.periodic i = true → c.range.b i ≤ q i ∧ q i < c.range.b i + periodLen c i)

end Spec

namespace Halo
variable {d n : Nat} {V : Type}

theorem target_of_in (c : Cart d) {p : Tup d} (h : Spec.pts c.range p) : target c p = p := by
  unfold target; rw [if_pos ((contains_iff_pts _ _).2 h)]

theorem target_of_out (c : Cart d) {p : Tup d} (h : ¬ Spec.pts c.range p) :
    target c p = c.periodicAdjust p := by
  unfold target; rw [if_neg (by rw [contains_iff_pts]; exact h)]

theorem home_iff (c : Cart d) (hc : Spec.Proper c) (p q : Tup d) :
    Spec.Home c p q ↔ q = target c p ∧ Spec.pts c.range q := by
  by_cases hp : Spec.pts c.range p
  · rw [target_of_in c hp]
    constructor
    · rintro ⟨h1, h2, _⟩; exact ⟨h2 hp, h1⟩
    · rintro ⟨rfl, h⟩; exact ⟨h, fun _ => rfl, fun h' => absurd h h'⟩
  · rw [target_of_out c hp]
    constructor
    · rintro ⟨h1, _, h3⟩
      obtain ⟨h4, h5⟩ := h3 hp
      refine ⟨?_, h1⟩
      have e := (C03_canonical c hc p q).2 h4
      rw [e]
      funext i
      by_cases hi : c.periodic i = true
      · obtain ⟨k, hk⟩ : ∃ k : Int, q i = c.periodicAdjust q i + k * Spec.periodLen c i := by
          have := C03_same_point c hc q i
          simp only [hi, if_true] at this
          obtain ⟨k, hk⟩ := this
          exact ⟨-k, by rw [hk]; ring⟩
        have h6 := C03_first_period c hc q i hi
        have h7 := h5 i hi
        have hk0 : k = 0 := image_unique (P := Spec.periodLen c i) (a := c.range.b i)
          (x := c.periodicAdjust q i) h6.1 h6.2 (by rw [← hk]; exact h7.1) (by rw [← hk]; exact h7.2)
        rw [hk, hk0]; ring
      · simp [Cart.periodicAdjust, hi]
    · rintro ⟨rfl, h⟩
      exact ⟨h, fun h' => absurd h' hp, fun _ => ⟨C03_same_point c hc p, fun i hi =>
        C03_first_period c hc p i hi⟩⟩


/-! ### Memory -/

theorem unpack_miss : ∀ (xs : List (Int × V)) (m : Int → V) (j : Int), (∀ x ∈ xs, x.1 ≠ j) →
    unpack m xs j = m j
  | [], m, j, _ => rfl
  | x :: xs, m, j, h => by
    show unpack (write m x.1 x.2) xs j = m j
    rw [unpack_miss xs _ j fun y hy => h y (by simp [hy])]
    unfold write
    rw [if_neg (fun e => h x (by simp) e.symm)]

/-- Unpacking values `g p` at indices `ix p`, all different. -/
theorem unpack_hit {P : Type} (ix : P → Int) (g : P → V) : ∀ (L : List P) (m : Int → V),
    (L.map ix).Nodup → ∀ p ∈ L, unpack m (L.map fun p => (ix p, g p)) (ix p) = g p
  | [], m, _, p, h => by simp at h
  | q :: L, m, hn, p, h => by
    show unpack (write m (ix q) (g q)) (L.map fun p => (ix p, g p)) (ix p) = g p
    rw [List.map_cons, List.nodup_cons] at hn
    rcases List.mem_cons.1 h with rfl | h
    · rw [unpack_miss]
      · simp [write]
      · intro x hx
        obtain ⟨y, hy, rfl⟩ := List.mem_map.1 hx
        intro e
        exact hn.1 (List.mem_map.2 ⟨y, hy, e⟩)
    · exact unpack_hit ix g L _ hn.2 p h

theorem copy_miss : ∀ (xs : List (Int × Int)) (m : Int → V) (j : Int), (∀ x ∈ xs, x.2 ≠ j) →
    copyAll m xs j = m j
  | [], m, j, _ => rfl
  | x :: xs, m, j, h => by
    show copyAll (write m x.2 (m x.1)) xs j = m j
    rw [copy_miss xs _ j fun y hy => h y (by simp [hy])]
    unfold write
    rw [if_neg (fun e => h x (by simp) e.symm)]

theorem copy_hit {P : Type} (src dst : P → Int) : ∀ (L : List P) (m : Int → V),
    (L.map dst).Nodup → (∀ p ∈ L, ∀ q ∈ L, src p ≠ dst q) →
    ∀ p ∈ L, copyAll m (L.map fun p => (src p, dst p)) (dst p) = m (src p)
  | [], m, _, _, p, h => by simp at h
  | q :: L, m, hn, hs, p, h => by
    show copyAll (write m (dst q) (m (src q))) (L.map fun p => (src p, dst p)) (dst p) = m (src p)
    rw [List.map_cons, List.nodup_cons] at hn
    rcases List.mem_cons.1 h with rfl | h
    · rw [copy_miss]
      · simp [write]
      · intro x hx
        obtain ⟨y, hy, rfl⟩ := List.mem_map.1 hx
        intro e
        exact hn.1 (List.mem_map.2 ⟨y, hy, e⟩)
    · rw [copy_hit src dst L _ hn.2 (fun a ha b hb => hs a (by simp [ha]) b (by simp [hb])) p h]
      unfold write
      rw [if_neg (hs p (by simp [h]) q (by simp))]

/-! ### Index lists -/

theorem mem_pts (r : Rng d) (p : Tup d) : p ∈ r.points ↔ Spec.pts r p := Rng.mem_points r p


/-- The points of `b`'s extended range that `b` gets from `a`, in message order. -/
def points (s : Setup d n) (b a : Fin n) : List (Tup d) :=
  if s.cart.range.includes (s.ext b) then (intersectRanges (s.ext b) (s.loc a)).points
  else maskPoints s.cart (s.ext b) (s.loc b) (s.loc a)

theorem recv_eq (s : Setup d n) (b a : Fin n) :
    s.recv b a = (points s b a).map fun p => (s.ext b).colIndex p := by
  unfold Setup.recv recvIndices points
  split_ifs <;> rfl

/-- Assumptions on the ranges. -/
structure Good (s : Setup d n) : Prop where
  proper : Spec.Proper s.cart
  tiles : Spec.Tiles s.cart s.loc
  within : ∀ a p, Spec.pts (s.loc a) p → Spec.pts (s.ext a) p
  sym : ∀ a b, b ∈ s.nbrs a → a ∈ s.nbrs b
  irrefl : ∀ a, a ∉ s.nbrs a

section
variable {s : Setup d n} (hg : Good s)
include hg

theorem loc_in (a : Fin n) {p : Tup d} (h : Spec.pts (s.loc a) p) : Spec.pts s.cart.range p :=
  fun i => ⟨(hg.tiles.1 a i).1.trans (h i).1, lt_of_lt_of_le (h i).2 (hg.tiles.1 a i).2⟩

theorem loc_unique {a b : Fin n} {p : Tup d} (h : Spec.pts (s.loc a) p) (h' : Spec.pts (s.loc b) p) :
    a = b := by
  obtain ⟨k, _, hk⟩ := hg.tiles.2 p (loc_in hg a h)
  rw [hk a h, hk b h']

theorem mem_points (b a : Fin n) (hab : a ≠ b) (p : Tup d) : p ∈ points s b a ↔
    Spec.pts (s.ext b) p ∧ ¬ Spec.pts (s.loc b) p ∧ Spec.pts (s.loc a) (target s.cart p) := by
  unfold points
  split_ifs with hi
  · rw [C02_includes] at hi
    rw [mem_pts, C02_intersect]
    constructor
    · rintro ⟨h1, h2⟩
      refine ⟨h1, fun h3 => hab (loc_unique hg h2 h3), ?_⟩
      rw [target_of_in _ (hi p h1)]; exact h2
    · rintro ⟨h1, _, h3⟩
      rw [target_of_in _ (hi p h1)] at h3
      exact ⟨h1, h3⟩
  · unfold maskPoints
    rw [List.mem_filter, mem_pts, Bool.and_eq_true, contains_iff_pts, Bool.not_eq_true',
      ← Bool.not_eq_true, contains_iff_pts]

omit hg in
theorem nodup_points (b a : Fin n) : (points s b a).Nodup := by
  unfold points
  split_ifs
  · exact Rng.nodup_points _
  · exact (Rng.nodup_points _).filter _

theorem send_eq (b a : Fin n) :
    s.send a b = (points s b a).map fun p => (s.ext a).colIndex (target s.cart p) := by
  unfold Setup.send sendIndices points
  split_ifs with hi
  · apply List.map_congr_left
    intro p hp
    rw [mem_pts, C02_intersect] at hp
    rw [target_of_in _ (loc_in hg a hp.2)]
  · rfl

omit hg in
theorem index_inj' (b : Fin n) {p q : Tup d} (hp : Spec.pts (s.ext b) p) (hq : Spec.pts (s.ext b) q)
    (h : (s.ext b).colIndex p = (s.ext b).colIndex q) : p = q :=
  (s.ext b).index_inj .col p q hp hq h

theorem nodup_recv (b a : Fin n) (hab : a ≠ b) :
    ((points s b a).map fun p => (s.ext b).colIndex p).Nodup := by
  refine List.Nodup.map_on ?_ (nodup_points b a)
  intro x hx y hy he
  exact index_inj' b ((mem_points hg b a hab x).1 hx).1 ((mem_points hg b a hab y).1 hy).1 he

/-! ### Invariant -/

/-- Field of `b` right after its local copies. -/
def local1 (s : Setup d n) (f : Fin n → Int → V) (b : Fin n) : Int → V :=
  copyAll (f b) (l2lPairs s.cart (s.loc b) (s.ext b))

structure Inv (s : Setup d n) (f : Fin n → Int → V) (x : State n V) : Prop where
  before : ∀ a, x.started a = false → x.field a = f a ∧ ∀ b, x.buf a b = none ∧ x.done a b = false
  sent : ∀ a b, x.started a = true → b ∈ s.nbrs a →
    x.buf a b = some ((points s b a).map fun p => f a ((s.ext a).colIndex (target s.cart p)))
  got : ∀ b a, x.done b a = true → a ∈ s.nbrs b ∧ ∀ p ∈ points s b a,
    x.field b ((s.ext b).colIndex p) = f a ((s.ext a).colIndex (target s.cart p))
  rest : ∀ b j, x.started b = true →
    (∀ a, x.done b a = true → ∀ p ∈ points s b a, (s.ext b).colIndex p ≠ j) →
    x.field b j = local1 s f b j

omit hg in
theorem inv_initial (f : Fin n → Int → V) : Inv s f (initial f) :=
  ⟨fun a _ => ⟨rfl, fun _ => ⟨rfl, rfl⟩⟩, fun a b h => by simp [initial] at h,
    fun b a h => by simp [initial] at h, fun b j h => by simp [initial] at h⟩

theorem inv_step (f : Fin n → Int → V) (x y : State n V) (e : Event n) (h : Inv s f x)
    (hy : step s x e = some y) : Inv s f y := by
  cases e with
  | start a =>
    simp only [step] at hy
    split_ifs at hy with hst
    have hst' : x.started a = false := by simpa using hst
    obtain ⟨hfa, hba⟩ := h.before a hst'
    obtain rfl := Option.some.inj hy
    refine ⟨?_, ?_, ?_, ?_⟩
    · intro k hk
      have hka : k ≠ a := by rintro rfl; simp at hk
      simp only [hka, if_false] at hk ⊢
      exact h.before k hk
    · intro k b hk hb
      by_cases hka : k = a
      · subst hka
        simp only [if_true, hb]
        rw [hfa, send_eq hg b k, List.map_map]; rfl
      · simp only [hka, if_false] at hk ⊢
        exact h.sent k b hk hb
    · intro b k hd
      have hd' : x.done b k = true := hd
      by_cases hba' : b = a
      · subst hba'; rw [(hba k).2] at hd'; simp at hd'
      · simp only [hba', if_false]
        exact h.got b k hd'
    · intro b j hb hno
      by_cases hba' : b = a
      · subst hba'
        simp only [if_true, hfa, local1]
      · simp only [hba', if_false] at hb ⊢
        exact h.rest b j hb hno
  | complete b a =>
    simp only [step] at hy
    split_ifs at hy with hcond
    obtain ⟨hsb, hab, hdone⟩ := hcond
    have hne : a ≠ b := fun e => hg.irrefl b (e ▸ hab)
    cases hbuf : x.buf a b with
    | none => rw [hbuf] at hy; simp at hy
    | some vals =>
      rw [hbuf] at hy
      simp only at hy
      split_ifs at hy with hlen
      have hsa : x.started a = true := by
        by_contra hc
        rw [((h.before a (by simpa using hc)).2 b).1] at hbuf; simp at hbuf
      have hvals := h.sent a b hsa (hg.sym b a hab)
      rw [hbuf] at hvals
      obtain rfl := Option.some.inj hvals
      obtain rfl := Option.some.inj hy
      have hz : (s.recv b a).zip ((points s b a).map fun p => f a ((s.ext a).colIndex (target s.cart p))) =
          (points s b a).map fun p => ((s.ext b).colIndex p, f a ((s.ext a).colIndex (target s.cart p))) := by
        rw [recv_eq, List.zip_map']
      refine ⟨?_, ?_, ?_, ?_⟩
      · intro k hk
        have hk' : x.started k = false := hk
        have hkb : k ≠ b := by rintro rfl; rw [hsb] at hk'; simp at hk'
        simp only [hkb, if_false, false_and]
        exact h.before k hk'
      · exact h.sent
      · intro k m hd
        simp only at hd
        by_cases hkm : k = b ∧ m = a
        · obtain ⟨rfl, rfl⟩ := hkm
          refine ⟨hab, ?_⟩
          intro p hp
          simp only [if_true, hz]
          exact unpack_hit _ _ _ _ (nodup_recv hg k m hne) p hp
        · rw [if_neg hkm] at hd
          obtain ⟨h1, h2⟩ := h.got k m hd
          refine ⟨h1, ?_⟩
          intro p hp
          by_cases hkb : k = b
          · subst hkb
            have hma : m ≠ a := fun e => hkm ⟨rfl, e⟩
            have hmk : m ≠ k := fun e => hg.irrefl k (e ▸ h1)
            simp only [if_true]
            rw [hz, unpack_miss, h2 p hp]
            intro y hy2
            obtain ⟨q, hq, rfl⟩ := List.mem_map.1 hy2
            intro he
            have mp := (mem_points hg k m hmk p).1 hp
            have mq := (mem_points hg k a hne q).1 hq
            have := index_inj' k mq.1 mp.1 he
            subst this
            exact hma (loc_unique hg mp.2.2 mq.2.2)
          · simp only [hkb, if_false]
            exact h2 p hp
      · intro k j hk hno
        have hk' : x.started k = true := hk
        by_cases hkb : k = b
        · subst hkb
          simp only [if_true]
          rw [hz, unpack_miss]
          · apply h.rest k j hk'
            intro m hm
            apply hno m
            by_cases hma : m = a
            · simp [hma]
            · simp [hma, hm]
          · intro y hy2
            obtain ⟨q, hq, rfl⟩ := List.mem_map.1 hy2
            exact hno a (by simp) q hq
        · simp only [hkb, if_false]
          apply h.rest k j hk'
          intro m hm
          exact hno m (by simp [hkb, hm])

theorem inv_run (f : Fin n → Int → V) : ∀ (es : List (Event n)) (x y : State n V), Inv s f x →
    run s x es = some y → Inv s f y
  | [], x, y, h, hy => by simp only [run, Option.some.injEq] at hy; exact hy ▸ h
  | e :: es, x, y, h, hy => by
    simp only [run, Option.bind_eq_some_iff] at hy
    obtain ⟨z, hz, hy⟩ := hy
    exact inv_run f es z y (inv_step hg f x z e h hz) hy

omit hg in
theorem mem_l2l (b : Fin n) (p : Tup d) : p ∈ l2lPoints s.cart (s.loc b) (s.ext b) ↔
    s.cart.range.includes (s.ext b) = false ∧ Spec.pts (s.ext b) p ∧ ¬ Spec.pts (s.loc b) p ∧
      Spec.pts (s.loc b) (s.cart.periodicAdjust p) := by
  unfold l2lPoints
  split_ifs with hi
  · simp [hi]
  · simp only [hi, true_and]
    rw [List.mem_filter, mem_pts, Bool.and_eq_true, contains_iff_pts, Bool.not_eq_true',
      ← Bool.not_eq_true, contains_iff_pts]

/-- Local copies. -/
theorem local1_spec (f : Fin n → Int → V) (b : Fin n) (p : Tup d) (hp : Spec.pts (s.ext b) p) :
    local1 s f b ((s.ext b).colIndex p) =
      if p ∈ l2lPoints s.cart (s.loc b) (s.ext b) then f b ((s.ext b).colIndex (s.cart.periodicAdjust p))
      else f b ((s.ext b).colIndex p) := by
  unfold local1 l2lPairs
  split_ifs with hm
  · refine copy_hit (fun p => (s.ext b).colIndex (s.cart.periodicAdjust p))
      (fun p => (s.ext b).colIndex p) _ _ ?_ ?_ p hm
    · refine List.Nodup.map_on ?_ ?_
      · intro x hx y hy he
        exact index_inj' b ((mem_l2l b x).1 hx).2.1 ((mem_l2l b y).1 hy).2.1 he
      · unfold l2lPoints
        split_ifs
        · simp
        · exact (Rng.nodup_points _).filter _
    · intro x hx y hy he
      have mx := (mem_l2l b x).1 hx
      have my := (mem_l2l b y).1 hy
      have := index_inj' b (hg.within b _ mx.2.2.2) my.2.1 he
      rw [this] at mx
      exact my.2.2.1 mx.2.2.2
  · apply copy_miss
    intro x hx
    obtain ⟨q, hq, rfl⟩ := List.mem_map.1 hx
    intro he
    have := index_inj' b ((mem_l2l b q).1 hq).2.1 hp he
    exact hm (this ▸ hq)

end

/-- C20: whatever the order of calls and of message completions, once every receive has completed every
point of every extended range whose home is owned by the process itself or by one of its neighbours holds
the value its owner had before the exchange. -/
theorem C20_values {s : Setup d n} (hg : Good s) (f : Fin n → Int → V) (es : List (Event n))
    (x : State n V) (hrun : run s (initial f) es = some x) (hfin : Finished s x)
    (b : Fin n) (p : Tup d) (hp : Spec.pts (s.ext b) p) (q : Tup d) (hq : Spec.Home s.cart p q)
    (a : Fin n) (ha : Spec.pts (s.loc a) q) (hab : a = b ∨ a ∈ s.nbrs b) :
    x.field b ((s.ext b).colIndex p) = f a ((s.ext a).colIndex q) := by
  have hinv := inv_run hg f es _ _ (inv_initial f) hrun
  obtain ⟨rfl, hqr⟩ := (home_iff _ hg.proper _ _).1 hq
  by_cases hab' : a = b
  · subst hab'
    rw [hinv.rest a _ (hfin.1 a), local1_spec hg f a p hp]
    · by_cases hpr : Spec.pts s.cart.range p
      · rw [target_of_in _ hpr] at ha ⊢
        rw [if_neg (fun h => ((mem_l2l a p).1 h).2.2.1 ha)]
      · rw [target_of_out _ hpr] at ha ⊢
        rw [if_pos]
        rw [mem_l2l]
        refine ⟨?_, hp, fun h => hpr (loc_in hg a h), ha⟩
        rw [← Bool.not_eq_true, C02_includes]
        intro h; exact hpr (h p hp)
    · intro m hm r hr he
      obtain ⟨h1, _⟩ := hinv.got a m hm
      have hma : m ≠ a := fun e => hg.irrefl a (e ▸ h1)
      have mr := (mem_points hg a m hma r).1 hr
      have := index_inj' a mr.1 hp he
      subst this
      exact hma (loc_unique hg mr.2.2 ha)
  · have hn : a ∈ s.nbrs b := hab.resolve_left hab'
    apply (hinv.got b a (hfin.2 b a hn)).2 p
    rw [mem_points hg b a hab']
    refine ⟨hp, ?_, ha⟩
    intro h
    rw [target_of_in _ (loc_in hg b h)] at ha
    exact hab' (loc_unique hg ha h)

/-- C20: owned values are unchanged. -/
theorem C20_owned {s : Setup d n} (hg : Good s) (f : Fin n → Int → V) (es : List (Event n))
    (x : State n V) (hrun : run s (initial f) es = some x) (hfin : Finished s x)
    (b : Fin n) (p : Tup d) (hp : Spec.pts (s.loc b) p) :
    x.field b ((s.ext b).colIndex p) = f b ((s.ext b).colIndex p) :=
  C20_values hg f es x hrun hfin b p (hg.within b p hp) p
    ⟨loc_in hg b hp, fun _ => rfl, fun h => absurd (loc_in hg b hp) h⟩ b hp (.inl rfl)

/-- C20: memory that belongs to no point with a home is not touched (this includes everything outside
the array of the extended range). -/
theorem C20_untouched {s : Setup d n} (hg : Good s) (f : Fin n → Int → V) (es : List (Event n))
    (x : State n V) (hrun : run s (initial f) es = some x) (hfin : Finished s x) (b : Fin n) (j : Int)
    (hj : ∀ p, Spec.pts (s.ext b) p → (∃ q, Spec.Home s.cart p q) → (s.ext b).colIndex p ≠ j) :
    x.field b j = f b j := by
  have hinv := inv_run hg f es _ _ (inv_initial f) hrun
  rw [hinv.rest b _ (hfin.1 b)]
  · unfold local1 l2lPairs
    apply copy_miss
    intro y hy
    obtain ⟨p, hp, rfl⟩ := List.mem_map.1 hy
    have mp := (mem_l2l b p).1 hp
    refine hj p mp.2.1 ⟨target s.cart p, (home_iff _ hg.proper _ _).2 ⟨rfl, ?_⟩⟩
    by_cases hpr : Spec.pts s.cart.range p
    · rw [target_of_in _ hpr]; exact hpr
    · rw [target_of_out _ hpr]; exact loc_in hg b mp.2.2.2
  · intro m hm r hr
    obtain ⟨h1, _⟩ := hinv.got b m hm
    have hma : m ≠ b := fun e => hg.irrefl b (e ▸ h1)
    have mr := (mem_points hg b m hma r).1 hr
    exact hj r mr.1 ⟨target s.cart r, (home_iff _ hg.proper _ _).2 ⟨rfl, loc_in hg m mr.2.2⟩⟩

/-- C20: the exchange cannot get stuck: in every reachable state that is not finished some event is
possible, and every receive that is possible finds a message of the expected length. -/
theorem C20_progress {s : Setup d n} (hg : Good s) (f : Fin n → Int → V) (es : List (Event n))
    (x : State n V) (hrun : run s (initial f) es = some x) (hnf : ¬ Finished s x) :
    ∃ e y, step s x e = some y := by
  have hinv := inv_run hg f es _ _ (inv_initial f) hrun
  by_cases hst : ∀ a, x.started a = true
  · have : ¬ ∀ b, ∀ a ∈ s.nbrs b, x.done b a = true := fun h => hnf ⟨hst, h⟩
    push Not at this
    obtain ⟨b, a, hab, hd⟩ := this
    have hd' : x.done b a = false := by simpa using hd
    refine ⟨.complete b a, ?_⟩
    simp only [step]
    rw [if_pos ⟨hst b, hab, hd'⟩, hinv.sent a b (hst a) (hg.sym b a hab)]
    simp only
    rw [if_pos (by rw [recv_eq]; simp)]
    exact ⟨_, rfl⟩
  · push Not at hst
    obtain ⟨a, ha⟩ := hst
    have ha' : x.started a = false := by simpa using ha
    exact ⟨.start a, by simp only [step]; rw [if_neg (by simp [ha'])]; exact ⟨_, rfl⟩⟩

/-- Calls not made and receives not completed. -/
def remaining (s : Setup d n) (x : State n V) : Nat :=
  (Finset.univ.filter fun a => x.started a = false).card +
  (Finset.univ.filter fun y : Fin n × Fin n => y.2 ∈ s.nbrs y.1 ∧ x.done y.1 y.2 = false).card

theorem remaining_step (s : Setup d n) (x y : State n V) (e : Event n) (h : step s x e = some y) :
    remaining s y < remaining s x := by
  cases e with
  | start a =>
    simp only [step] at h
    split_ifs at h with hst
    obtain rfl := Option.some.inj h
    unfold remaining
    apply Nat.add_lt_add_right
    apply Finset.card_lt_card
    rw [Finset.ssubset_iff_of_subset]
    · exact ⟨a, by simpa using hst, by simp⟩
    · intro k hk
      simp only [Finset.mem_filter, Finset.mem_univ, true_and] at hk ⊢
      by_cases hka : k = a
      · simp [hka] at hk
      · simpa [hka] using hk
  | complete b a =>
    simp only [step] at h
    split_ifs at h with hc
    cases hb : x.buf a b with
    | none => rw [hb] at h; simp at h
    | some vals =>
      rw [hb] at h
      simp only at h
      split_ifs at h
      obtain rfl := Option.some.inj h
      unfold remaining
      apply Nat.add_lt_add_left
      apply Finset.card_lt_card
      rw [Finset.ssubset_iff_of_subset]
      · exact ⟨(b, a), by simpa using hc.2, by simp⟩
      · rintro ⟨k, m⟩ hk
        simp only [Finset.mem_filter, Finset.mem_univ, true_and] at hk ⊢
        by_cases hkm : k = b ∧ m = a
        · simp [hkm] at hk
        · rw [if_neg hkm] at hk; exact hk

/-- C20: every execution ends: at most one call per process and one completion per pair. -/
theorem C20_terminates (s : Setup d n) (f : Fin n → Int → V) (es : List (Event n)) (x : State n V)
    (h : run s (initial f) es = some x) : es.length ≤ n + n * n := by
  have key : ∀ (es : List (Event n)) (x y : State n V), run s x es = some y →
      es.length + remaining s y ≤ remaining s x := by
    intro es
    induction es with
    | nil => intro x y h; simp only [run, Option.some.injEq] at h; subst h; simp
    | cons e es ih =>
      intro x y h
      simp only [run, Option.bind_eq_some_iff] at h
      obtain ⟨z, hz, h⟩ := h
      have h1 := remaining_step s x z e hz
      have h2 := ih z y h
      simp only [List.length_cons]; omega
  have h1 := key es _ _ h
  have h2 : remaining s (initial f) ≤ n + n * n := by
    unfold remaining
    apply Nat.add_le_add
    · exact (Finset.card_le_univ _).trans (by simp)
    · exact (Finset.card_le_univ _).trans (by simp)
  omega

/-- C20: the result does not depend on the order of calls and completions. -/
theorem C20_same_result {s : Setup d n} (hg : Good s) (f : Fin n → Int → V) (es es' : List (Event n))
    (x y : State n V) (hx : run s (initial f) es = some x) (hy : run s (initial f) es' = some y)
    (hfx : Finished s x) (hfy : Finished s y) : x.field = y.field := by
  have ix := inv_run hg f es _ _ (inv_initial f) hx
  have iy := inv_run hg f es' _ _ (inv_initial f) hy
  funext b j
  by_cases hex : ∃ a ∈ s.nbrs b, ∃ p ∈ points s b a, (s.ext b).colIndex p = j
  · obtain ⟨a, ha, p, hp, rfl⟩ := hex
    rw [(ix.got b a (hfx.2 b a ha)).2 p hp, (iy.got b a (hfy.2 b a ha)).2 p hp]
  · push Not at hex
    rw [ix.rest b j (hfx.1 b) (fun a ha p hp => hex a (ix.got b a ha).1 p hp),
      iy.rest b j (hfy.1 b) (fun a ha p hp => hex a (iy.got b a ha).1 p hp)]

/-- C20: every index used to pack, unpack or copy lies in the array of the extended range, and the two
sides of a message have the same number of values. -/
theorem C20_in_bounds {s : Setup d n} (hg : Good s) (a b : Fin n) (hab : a ≠ b) :
    (∀ j ∈ s.send a b, 0 ≤ j ∧ j < (s.ext a).count) ∧
    (∀ j ∈ s.recv b a, 0 ≤ j ∧ j < (s.ext b).count) ∧
    (s.send a b).length = (s.recv b a).length ∧
    ∀ x ∈ l2lPairs s.cart (s.loc b) (s.ext b),
      (0 ≤ x.1 ∧ x.1 < (s.ext b).count) ∧ 0 ≤ x.2 ∧ x.2 < (s.ext b).count := by
  refine ⟨?_, ?_, ?_, ?_⟩
  · intro j hj
    rw [send_eq hg b a] at hj
    obtain ⟨p, hp, rfl⟩ := List.mem_map.1 hj
    exact Rng.index_bounds .col _ _ (hg.within a _ ((mem_points hg b a hab p).1 hp).2.2)
  · intro j hj
    rw [recv_eq] at hj
    obtain ⟨p, hp, rfl⟩ := List.mem_map.1 hj
    exact Rng.index_bounds .col _ _ ((mem_points hg b a hab p).1 hp).1
  · rw [send_eq hg b a, recv_eq]; simp
  · intro x hx
    obtain ⟨p, hp, rfl⟩ := List.mem_map.1 hx
    have mp := (mem_l2l b p).1 hp
    exact ⟨Rng.index_bounds .col _ _ (hg.within b _ mp.2.2.2), Rng.index_bounds .col _ _ mp.2.1⟩

/- A ring of six points on two processes; the extended ranges are those of the grid and overlap the
whole ring. -/
def exSetup : Setup 1 2 where
  cart := exRing
  loc := exRingLoc
  ext := fun k => gridExtendedRange exRing (exRingLoc k)
  nbrs := ![[1], [0]]

theorem exSetup_good : Good exSetup where
  proper := by unfold exSetup Spec.Proper Spec.periodLen exRing; decide
  tiles := by
    refine ⟨by unfold exSetup exRing exRingLoc; decide, fun p hp => ?_⟩
    have h : 0 ≤ p 0 ∧ p 0 < 6 := hp 0
    by_cases hx : p 0 < 2
    · refine ⟨0, fun i => ?_, ?_⟩
      · have : i = 0 := Subsingleton.elim _ _
        subst this; exact ⟨h.1, hx⟩
      · intro k hk
        fin_cases k
        · rfl
        · have : (2 : Int) ≤ p 0 := (hk 0).1
          omega
    · refine ⟨1, fun i => ?_, ?_⟩
      · have : i = 0 := Subsingleton.elim _ _
        subst this; exact ⟨by show (2 : Int) ≤ p 0; omega, h.2⟩
      · intro k hk
        fin_cases k
        · have : p 0 < 2 := (hk 0).2
          omega
        · rfl
  within := by
    intro a p hp i
    have : i = 0 := Subsingleton.elim _ _
    subst this
    have := hp 0
    fin_cases a
    · exact ⟨by have : (0 : Int) ≤ p 0 := this.1; show (-2 : Int) ≤ p 0; omega,
        by have : p 0 < 2 := this.2; show p 0 < 5; omega⟩
    · exact ⟨by have : (2 : Int) ≤ p 0 := this.1; show (0 : Int) ≤ p 0; omega,
        by have : p 0 < 6 := this.2; show p 0 < 9; omega⟩
  sym := by unfold exSetup; decide
  irrefl := by unfold exSetup; decide

/- Fields start as `100*rank + array index`; process 1 starts first and completes last. -/
example : ((run exSetup (initial fun k j => 100 * (k : Int) + j)
      [.start 1, .start 0, .complete 0 1, .complete 1 0]).map fun x =>
    ([0, 1, 2, 3, 4, 5, 6].map (x.field 0), [0, 1, 2, 3, 4, 5, 6, 7, 8].map (x.field 1))) =
    some ([104, 105, 2, 3, 102, 103, 104], [2, 3, 102, 103, 104, 105, 2, 3, 102]) := by decide +kernel

end Halo
end Ovk
