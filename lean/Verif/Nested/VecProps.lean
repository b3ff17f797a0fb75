import Verif.Nested.Vec

/-!
# C104: vectors of regular objects are regular
-/

namespace Ptl.Nested.Vec

open Ptl.Nested

variable {σ ν : Type} {C : Class σ} {L : Limit} {R : Rotation} {Rep : σ → (Nat → Option ν) → Prop} {Clean : σ → Prop}

/-! ### elements in memory -/

theorem cell_inj {b b' k k' : Nat} (hk : k < L.max + 1) (hk' : k' < L.max + 1) (h : cell L b k = cell L b' k') : b = b' ∧ k = k' := by
  have h1 : k = k' := by
    have := congrArg (· % (L.max + 1)) h
    simpa only [cell, mod_at ⟨k, hk⟩ b, mod_at ⟨k', hk'⟩ b'] using (mod_at ⟨k, hk⟩ b).symm.trans (this.trans (mod_at ⟨k', hk'⟩ b'))
  subst h1
  exact ⟨Nat.eq_of_mul_eq_mul_right (Nat.succ_pos L.max) (Nat.add_right_cancel h), rfl⟩

/-- the objects in the blocks -/
def cells (L : Limit) (cont : Nat → List ν) : Nat → Option ν := fun p => (cont (p / (L.max + 1)))[p % (L.max + 1)]?

theorem cells_at (cont : Nat → List ν) (b : Nat) {k : Nat} (hk : k < L.max + 1) : cells L cont (cell L b k) = (cont b)[k]? := by
  have h1 : (b * (L.max + 1) + k) % (L.max + 1) = k := mod_at ⟨k, hk⟩ b
  have h2 : (b * (L.max + 1) + k) / (L.max + 1) = b := by
    rw [Nat.add_comm, Nat.add_mul_div_right _ _ (Nat.succ_pos _), Nat.div_eq_of_lt hk, Nat.zero_add]
  rw [cells, cell, h1, h2]

theorem cells_ext {cont : Nat → List ν} {W : Nat → Option ν} (h : ∀ b k, k < L.max + 1 → W (cell L b k) = (cont b)[k]?) : W = cells L cont := by
  funext p
  have hp : p = cell L (p / (L.max + 1)) (p % (L.max + 1)) := by
    rw [cell, Nat.mul_comm]; exact (Nat.div_add_mod p _).symm
  have := h (p / (L.max + 1)) (p % (L.max + 1)) (Nat.mod_lt _ (Nat.succ_pos _))
  rw [← hp] at this
  exact this

theorem address_run {s : St σ} {b c k : Nat} (h : s.own.blk b = some c) (hk : k < c) : address L (some b) k s = .ok (cell L b k) s := by
  simp [address, h, hk]

theorem destroyN_run (hL : Laws C Rep) {b c : Nat} (hc : c ≤ L.max) : ∀ (count first : Nat) (s : St σ) (W : Nat → Option ν), s.own.blk b = some c → first + count ≤ c →
    Rep s.mem W → (∀ k, first ≤ k → k < first + count → ∃ x, W (cell L b k) = some x) →
    ∃ t W', destroyN C L (some b) first count s = .ok () ⟨s.own, t⟩ ∧ Rep t W' ∧ (∀ k, first ≤ k → k < first + count → W' (cell L b k) = none) ∧
      ∀ p, (∀ k, first ≤ k → k < first + count → p ≠ cell L b k) → W' p = W p
  | 0, first, s, W, hb, hle, hr, hl => ⟨s.mem, W, rfl, hr, fun k h1 h2 => by omega, fun _ _ => rfl⟩
  | count + 1, first, s, W, hb, hle, hr, hl => by
    obtain ⟨x, hx⟩ := hl first (Nat.le_refl _) (by omega)
    obtain ⟨t, h1, h2⟩ := hL.dtor hr hx
    obtain ⟨t', W', h3, h4, h5, h6⟩ := destroyN_run hL hc count (first + 1) ⟨s.own, t⟩ _ hb (by omega) h2 fun k hk1 hk2 => by
      obtain ⟨x, hx⟩ := hl k (by omega) (by omega)
      refine ⟨x, ?_⟩
      rw [upd_ne _ _ fun h => by have := (cell_inj (by omega) (by omega) h).2; omega]
      exact hx
    refine ⟨t', W', ?_, h4, fun k hk1 hk2 => ?_, fun p hp => ?_⟩
    · unfold destroyN
      rw [M.bind_ok (address_run hb (by omega)), M.bind_ok (inner_ok h1), h3]
    · by_cases hk : k = first
      · subst hk
        rw [h6 _ fun k' h7 h8 h => by have := (cell_inj (by omega) (by omega) h).2; omega, upd_same]
      · exact h5 k (by omega) (by omega)
    · rw [h6 p fun k hk1 hk2 => hp k (by omega) (by omega), upd_ne _ _ (hp first (Nat.le_refl _) (by omega))]

theorem copyN_res (hL : Laws C Rep) {b b' c c' : Nat} (hc : c ≤ L.max) (hc' : c' ≤ L.max) : ∀ (count to fr : Nat) (s : St σ) (W : Nat → Option ν),
    s.own.blk b = some c → s.own.blk b' = some c' → to + count ≤ c → fr + count ≤ c' → Rep s.mem W →
    (∀ k, k < count → W (cell L b (to + k)) = none) → (∀ k, k < count → ∃ x, W (cell L b' (fr + k)) = some x) →
    Res (copyN C L (some b) (some b') to fr count s)
      (fun s' => s'.own = s.own ∧ ∃ W', Rep s'.mem W' ∧ (∀ k, k < count → W' (cell L b (to + k)) = W (cell L b' (fr + k))) ∧
        ∀ p, (∀ k, k < count → p ≠ cell L b (to + k)) → W' p = W p)
      (fun s' => s'.own = s.own ∧ Rep s'.mem W)
  | 0, to, fr, s, W, hb, hb', hle, hle', hr, hd, hl => .ok rfl ⟨rfl, W, hr, fun k h => by omega, fun _ _ => rfl⟩
  | count + 1, to, fr, s, W, hb, hb', hle, hle', hr, hd, hl => by
    obtain ⟨x, hx⟩ := hl 0 (by omega)
    have hd0 := hd 0 (by omega)
    rw [Nat.add_zero] at hx hd0
    unfold copyN
    rw [M.bind_ok (address_run hb (by omega)), M.bind_ok (address_run hb' (by omega))]
    rcases hL.copy hr hd0 hx with ⟨t, h1, h2⟩ | ⟨e, t, h1, h2⟩
    · rw [M.bind_ok (inner_ok h1)]
      have hsrc : ∀ k, k < count → cell L b' (fr + 1 + k) ≠ cell L b to := fun k hk h => by
        obtain ⟨x, hx⟩ := hl (k + 1) (by omega)
        rw [show fr + (k + 1) = fr + 1 + k by omega, h, hd0] at hx
        cases hx
      have htgt : ∀ k, k < count → cell L b (to + 1 + k) ≠ cell L b to := fun k hk h => by
        have := (cell_inj (by omega) (by omega) h).2; omega
      rcases copyN_res hL hc hc' count (to + 1) (fr + 1) ⟨s.own, t⟩ (upd W (cell L b to) (some x)) hb hb' (by omega) (by omega) h2
        (fun k hk => by rw [upd_ne _ _ (htgt k hk)]; have := hd (k + 1) (by omega); rwa [show to + (k + 1) = to + 1 + k by omega] at this)
        (fun k hk => by rw [upd_ne _ _ (hsrc k hk)]; have := hl (k + 1) (by omega); rwa [show fr + (k + 1) = fr + 1 + k by omega] at this)
        with ⟨s2, h3, h4, W', h5, h6, h7⟩ | ⟨e, s2, h3, h4, h5⟩
      · refine .ok (M.onExc_ok h3) ⟨h4, W', h5, fun k hk => ?_, fun p hp => ?_⟩
        · cases k with
          | zero =>
            rw [Nat.add_zero, Nat.add_zero, h7 _ fun k hk h => htgt k hk h.symm, upd_same, hx]
          | succ k =>
            have := h6 k (by omega)
            rw [upd_ne _ _ (hsrc k (by omega))] at this
            rw [show to + (k + 1) = to + 1 + k by omega, show fr + (k + 1) = fr + 1 + k by omega]
            exact this
        · rw [h7 p fun k hk => ?_, upd_ne _ _ (show p ≠ cell L b to from hp 0 (by omega))]
          have := hp (k + 1) (by omega)
          rwa [show to + (k + 1) = to + 1 + k by omega] at this
      · obtain ⟨t', h8, h9⟩ := hL.dtor h5 (upd_same _ _ _)
        rw [upd_upd, upd_eq _ _ _ hd0] at h9
        refine .inr ⟨e, ⟨s2.own, t'⟩, M.onExc_exc h3 ?_, h4, h9⟩
        rw [M.bind_ok (address_run (L := L) (s := s2) (by rw [h4]; exact hb) (by omega))]
        exact inner_ok h8
    · rw [M.bind_exc (inner_exc h1)]
      exact .inr ⟨e, _, rfl, rfl, h2⟩

theorem length_swapAt {α : Type} (xs : List α) (k k' : Nat) : (swapAt xs k k').length = xs.length := by
  unfold swapAt; split <;> simp

theorem swapAll_run (hL : Laws C Rep) {b c : Nat} {cont : Nat → List ν} (hc : c ≤ L.max) : ∀ (l : List (Nat × Nat)) (zs : List ν) (s : St σ), s.own.blk b = some c →
    zs.length ≤ c → (∀ p ∈ l, p.1 < zs.length ∧ p.2 < zs.length) → Rep s.mem (cells L (upd cont b zs)) →
    ∃ t, swapAll C L (some b) l s = .ok () ⟨s.own, t⟩ ∧ Rep t (cells L (upd cont b (l.foldl (fun zs p => swapAt zs p.1 p.2) zs)))
  | [], zs, s, _, _, _, hr => ⟨s.mem, rfl, hr⟩
  | (k, k') :: l, zs, s, hb, hz, hp, hr => by
    have hk : k < zs.length := (hp _ List.mem_cons_self).1
    have hk' : k' < zs.length := (hp _ List.mem_cons_self).2
    have e1 : cells L (upd cont b zs) (cell L b k) = some zs[k] := by rw [cells_at _ _ (by omega), upd_same, List.getElem?_eq_getElem hk]
    have e2 : cells L (upd cont b zs) (cell L b k') = some zs[k'] := by rw [cells_at _ _ (by omega), upd_same, List.getElem?_eq_getElem hk']
    obtain ⟨t, h1, h2⟩ := hL.swap hr e1 e2
    have e3 : upd (upd (cells L (upd cont b zs)) (cell L b k) (some zs[k'])) (cell L b k') (some zs[k]) = cells L (upd cont b (swapAt zs k k')) := by
      apply cells_ext
      intro q r hr'
      have hs : swapAt zs k k' = (zs.set k zs[k']).set k' zs[k] := by
        simp [swapAt, List.getElem?_eq_getElem hk, List.getElem?_eq_getElem hk']
      by_cases hq : q = b
      · subst hq
        rw [upd_same, hs]
        by_cases h1 : r = k'
        · subst h1; simp [hk']
        · rw [upd_ne _ _ fun h => h1 (cell_inj hr' (by omega) h).2, List.getElem?_set_ne (Ne.symm h1)]
          by_cases h2 : r = k
          · subst h2; simp [hk]
          · rw [upd_ne _ _ fun h => h2 (cell_inj hr' (by omega) h).2, List.getElem?_set_ne (Ne.symm h2), cells_at _ _ hr', upd_same]
      · rw [upd_ne _ _ fun h => hq (cell_inj hr' (by omega) h).1, upd_ne _ _ fun h => hq (cell_inj hr' (by omega) h).1, cells_at _ _ hr', upd_ne _ _ hq, upd_ne _ _ hq]
    rw [e3] at h2
    obtain ⟨t', h3, h4⟩ := swapAll_run hL hc l (swapAt zs k k') ⟨s.own, t⟩ hb (by rw [length_swapAt]; exact hz)
      (fun p hp' => by rw [length_swapAt]; exact hp p (List.mem_cons_of_mem _ hp')) h2
    refine ⟨t', ?_, h4⟩
    unfold swapAll
    rw [M.bind_ok (address_run hb (by omega)), M.bind_ok (address_run hb (by omega)), M.bind_ok (inner_ok h1), h3]

/-! ### the vectors -/

/-- a `storage_t` with elements `xs` -/
def Holds (L : Limit) (h : Heap) (cont : Nat → List ν) (o : Storage) (xs : List ν) : Prop :=
  (o = ⟨none, 0, 0⟩ ∧ xs = []) ∨
  ∃ b, o.block = some b ∧ xs = cont b ∧ o.siz = (cont b).length ∧ h.blk b = some o.cap ∧ (cont b).length ≤ o.cap ∧ o.cap ≤ L.max

/-- every block belongs to one vector -/
structure Inv (L : Limit) (h : Heap) (V : Nat → Option (List ν)) (cont : Nat → List ν) : Prop where
  dead : ∀ i, h.objs i = none → V i = none
  live : ∀ i o, h.objs i = some o → ∃ xs, V i = some xs ∧ Holds L h cont o xs
  inj : ∀ i i' o o' b, h.objs i = some o → h.objs i' = some o' → o.block = some b → o'.block = some b → i = i'
  owned : ∀ b c, h.blk b = some c → ∃ i o, h.objs i = some o ∧ o.block = some b
  empty : ∀ b, h.blk b = none → cont b = []
  fresh : ∀ b, h.next ≤ b → h.blk b = none

/-- which vectors (with the local ones) there are -/
def RawRep (L : Limit) (Rep : σ → (Nat → Option ν) → Prop) (s : St σ) (V : Nat → Option (List ν)) : Prop := ∃ cont, Inv L s.own V cont ∧ Rep s.mem (cells L cont)

variable {h : Heap} {V : Nat → Option (List ν)} {cont : Nat → List ν} {i j : Nat}

theorem Inv.get (hI : Inv L h V cont) {xs : List ν} (hi : V i = some xs) : ∃ o, h.objs i = some o ∧ Holds L h cont o xs := by
  cases ho : h.objs i with
  | none => rw [hI.dead i ho] at hi; cases hi
  | some o =>
    obtain ⟨xs', h1, h2⟩ := hI.live i o ho
    rw [hi] at h1; cases h1
    exact ⟨o, rfl, h2⟩

theorem Inv.gone (hI : Inv L h V cont) (hi : V i = none) : h.objs i = none := by
  cases ho : h.objs i with
  | none => rfl
  | some o =>
    obtain ⟨xs', h1, h2⟩ := hI.live i o ho
    rw [hi] at h1; cases h1

theorem Holds.siz {o : Storage} {xs : List ν} (hh : Holds L h cont o xs) : o.siz = xs.length := by
  rcases hh with ⟨rfl, rfl⟩ | ⟨b, _, h2, h3, _⟩
  · rfl
  · rw [h3, h2]

theorem Holds.cap {o : Storage} {xs : List ν} (hh : Holds L h cont o xs) : o.siz ≤ o.cap ∧ o.cap ≤ L.max := by
  rcases hh with ⟨rfl, rfl⟩ | ⟨b, _, h2, h3, h4, h5, h6⟩
  · exact ⟨Nat.le_refl _, Nat.zero_le _⟩
  · rw [h3]; exact ⟨h5, h6⟩

/-- a vector without block comes into being, or is replaced by one -/
theorem Inv.blank (hI : Inv L h V cont) (hi : ∀ o, h.objs i = some o → o.block = none) :
    Inv L { h with objs := upd h.objs i (some ⟨none, 0, 0⟩) } (upd V i (some [])) cont where
  dead p hp := by
    by_cases hpi : p = i
    · subst hpi; simp at hp
    · rw [upd_ne _ _ hpi]; exact hI.dead p (by simpa [upd_ne _ _ hpi] using hp)
  live p o hp := by
    by_cases hpi : p = i
    · subst hpi
      simp only [upd_same, Option.some.injEq] at hp
      exact ⟨[], upd_same _ _ _, .inl ⟨hp.symm, rfl⟩⟩
    · simp only [upd_ne _ _ hpi] at hp ⊢
      exact hI.live p o hp
  inj p p' o o' b hp hp' ho ho' := by
    by_cases hpi : p = i
    · subst hpi; simp only [upd_same, Option.some.injEq] at hp; subst hp; cases ho
    · by_cases hpi' : p' = i
      · subst hpi'; simp only [upd_same, Option.some.injEq] at hp'; subst hp'; cases ho'
      · simp only [upd_ne _ _ hpi, upd_ne _ _ hpi'] at hp hp'
        exact hI.inj p p' o o' b hp hp' ho ho'
  owned b c hb := by
    obtain ⟨p, o, h1, h2⟩ := hI.owned b c hb
    refine ⟨p, o, ?_, h2⟩
    have hpi : p ≠ i := fun hp => by subst hp; rw [hi o h1] at h2; cases h2
    simp only [upd_ne _ _ hpi]
    exact h1
  empty := hI.empty
  fresh := hI.fresh

/-- a vector without block goes -/
theorem Inv.drop (hI : Inv L h V cont) (hi : ∀ o, h.objs i = some o → o.block = none) : Inv L { h with objs := upd h.objs i none } (upd V i none) cont where
  dead p hp := by
    by_cases hpi : p = i
    · subst hpi; simp
    · rw [upd_ne _ _ hpi]; exact hI.dead p (by simpa [upd_ne _ _ hpi] using hp)
  live p o hp := by
    by_cases hpi : p = i
    · subst hpi; simp at hp
    · simp only [upd_ne _ _ hpi] at hp ⊢
      exact hI.live p o hp
  inj p p' o o' b hp hp' ho ho' := by
    by_cases hpi : p = i
    · subst hpi; simp at hp
    · by_cases hpi' : p' = i
      · subst hpi'; simp at hp'
      · simp only [upd_ne _ _ hpi, upd_ne _ _ hpi'] at hp hp'
        exact hI.inj p p' o o' b hp hp' ho ho'
  owned b c hb := by
    obtain ⟨p, o, h1, h2⟩ := hI.owned b c hb
    refine ⟨p, o, ?_, h2⟩
    have hpi : p ≠ i := fun hp => by subst hp; rw [hi o h1] at h2; cases h2
    simp only [upd_ne _ _ hpi]
    exact h1
  empty := hI.empty
  fresh := hI.fresh

/-- two vectors exchange their members -/
theorem Inv.swap (hI : Inv L h V cont) {o o' : Storage} {xs ys : List ν} (hi : h.objs i = some o) (hj : h.objs j = some o') (hx : V i = some xs) (hy : V j = some ys) :
    Inv L { h with objs := upd (upd h.objs i (some o')) j (some o) } (upd (upd V i (some ys)) j (some xs)) cont := by
  by_cases hij : i = j
  · subst hij
    rw [hi] at hj; cases hj
    rw [hx] at hy; cases hy
    rw [upd_upd, upd_eq _ _ _ hi, upd_upd, upd_eq _ _ _ hx]
    exact hI
  have hho : Holds L h cont o xs := by
    obtain ⟨o2, h1, h2⟩ := hI.get hx; rw [hi] at h1; cases h1; exact h2
  have hho' : Holds L h cont o' ys := by
    obtain ⟨o2, h1, h2⟩ := hI.get hy; rw [hj] at h1; cases h1; exact h2
  /- the vector that had these members before -/
  let τ : Nat → Nat := fun p => if p = j then i else if p = i then j else p
  have hτ : ∀ p, upd (upd h.objs i (some o')) j (some o) p = h.objs (τ p) := fun p => by
    by_cases h1 : p = j
    · subst h1; simp [τ, hi]
    · by_cases h2 : p = i
      · subst h2; rw [upd_ne _ _ h1, upd_same]; simp [τ, h1, hj]
      · rw [upd_ne _ _ h1, upd_ne _ _ h2]; simp [τ, h1, h2]
  have hτV : ∀ p, upd (upd V i (some ys)) j (some xs) p = V (τ p) := fun p => by
    by_cases h1 : p = j
    · subst h1; simp [τ, hx]
    · by_cases h2 : p = i
      · subst h2; rw [upd_ne _ _ h1, upd_same]; simp [τ, h1, hy]
      · rw [upd_ne _ _ h1, upd_ne _ _ h2]; simp [τ, h1, h2]
  have hττ : ∀ p, τ (τ p) = p := fun p => by
    by_cases h1 : p = j
    · subst h1; simp [τ, hij]
    · by_cases h2 : p = i
      · subst h2; simp [τ, h1]
      · simp [τ, h1, h2]
  refine ⟨fun p hp => ?_, fun p o2 hp => ?_, fun p p' o2 o2' b hp hp' ho ho' => ?_, fun b c hb => ?_, hI.empty, hI.fresh⟩
  · rw [hτV]; exact hI.dead _ ((hτ p).symm.trans hp)
  · rw [hτV]; exact hI.live _ o2 ((hτ p).symm.trans hp)
  · have := hI.inj _ _ o2 o2' b ((hτ p).symm.trans hp) ((hτ p').symm.trans hp') ho ho'
    rw [← hττ p, this, hττ]
  · obtain ⟨p, o2, h1, h2⟩ := hI.owned b c hb
    exact ⟨τ p, o2, by show upd (upd h.objs i (some o')) j (some o) (τ p) = _; rw [hτ, hττ]; exact h1, h2⟩

/-- a vector's block is released, its elements having been destroyed -/
theorem Inv.release (hI : Inv L h V cont) {o : Storage} {b : Nat} (hi : h.objs i = some o) (hb : o.block = some b) :
    Inv L { h with objs := upd h.objs i (some ⟨none, 0, 0⟩), blk := upd h.blk b none } (upd V i (some [])) (upd cont b []) where
  dead p hp := by
    by_cases hpi : p = i
    · subst hpi; simp at hp
    · rw [upd_ne _ _ hpi]; exact hI.dead p (by simpa [upd_ne _ _ hpi] using hp)
  live p o2 hp := by
    by_cases hpi : p = i
    · subst hpi
      simp only [upd_same, Option.some.injEq] at hp
      exact ⟨[], upd_same _ _ _, .inl ⟨hp.symm, rfl⟩⟩
    · simp only [upd_ne _ _ hpi] at hp ⊢
      obtain ⟨xs, h1, h2⟩ := hI.live p o2 hp
      refine ⟨xs, h1, ?_⟩
      rcases h2 with h2 | ⟨b', h3, h4, h5, h6, h7⟩
      · exact .inl h2
      · have hbb : b' ≠ b := fun he => hpi (hI.inj p i o2 o b hp hi (he ▸ h3) hb)
        refine .inr ⟨b', h3, ?_, ?_, ?_, ?_⟩
        · rw [upd_ne _ _ hbb]; exact h4
        · rw [upd_ne _ _ hbb]; exact h5
        · simp only [upd_ne _ _ hbb]; exact h6
        · rw [upd_ne _ _ hbb]; exact h7
  inj p p' o2 o2' b' hp hp' ho ho' := by
    by_cases hpi : p = i
    · subst hpi; simp only [upd_same, Option.some.injEq] at hp; subst hp; cases ho
    · by_cases hpi' : p' = i
      · subst hpi'; simp only [upd_same, Option.some.injEq] at hp'; subst hp'; cases ho'
      · simp only [upd_ne _ _ hpi, upd_ne _ _ hpi'] at hp hp'
        exact hI.inj p p' o2 o2' b' hp hp' ho ho'
  owned b' c hb' := by
    have hbb : b' ≠ b := fun he => by subst he; simp at hb'
    simp only [upd_ne _ _ hbb] at hb'
    obtain ⟨p, o2, h1, h2⟩ := hI.owned b' c hb'
    refine ⟨p, o2, ?_, h2⟩
    have hpi : p ≠ i := fun hp => by subst hp; rw [hi] at h1; cases h1; rw [hb] at h2; cases h2; exact hbb rfl
    simp only [upd_ne _ _ hpi]
    exact h1
  empty b' hb' := by
    by_cases hbb : b' = b
    · subst hbb; simp
    · simp only [upd_ne _ _ hbb] at hb' ⊢; exact hI.empty b' hb'
  fresh b' hb' := by
    by_cases hbb : b' = b
    · subst hbb; simp
    · simp only [upd_ne _ _ hbb]; exact hI.fresh b' hb'

/-- a vector without block gets a new one -/
theorem Inv.alloc (hI : Inv L h V cont) (hi : ∀ o, h.objs i = some o → o.block = none) {c : Nat} (hc : c ≤ L.max) (f : Nat → Bool) :
    Inv L { h with objs := upd h.objs i (some ⟨some h.next, c, 0⟩), blk := upd h.blk h.next (some c), next := h.next + 1, fails := f } (upd V i (some [])) cont := by
  have hn : h.blk h.next = none := hI.fresh _ (Nat.le_refl _)
  have hne : ∀ {p o b}, h.objs p = some o → o.block = some b → b ≠ h.next := fun {p o b} hp ho he => by
    obtain ⟨xs, _, h2⟩ := hI.live p o hp
    rcases h2 with ⟨rfl, _⟩ | ⟨b', h3, _, _, h6, _⟩
    · cases ho
    · rw [ho] at h3; cases h3; rw [he, hn] at h6; cases h6
  refine ⟨fun p hp => ?_, fun p o hp => ?_, fun p p' o o' b hp hp' ho ho' => ?_, fun b c' hb => ?_, fun b hb => ?_, fun b hb => ?_⟩
  · by_cases hpi : p = i
    · subst hpi; simp at hp
    · rw [upd_ne _ _ hpi]; exact hI.dead p (by simpa [upd_ne _ _ hpi] using hp)
  · by_cases hpi : p = i
    · subst hpi
      simp only [upd_same, Option.some.injEq] at hp
      subst hp
      have he := hI.empty _ hn
      exact ⟨[], upd_same _ _ _, .inr ⟨h.next, rfl, he.symm, by rw [he]; rfl, by simp, by rw [he]; exact Nat.zero_le _, hc⟩⟩
    · simp only [upd_ne _ _ hpi] at hp ⊢
      obtain ⟨xs, h1, h2⟩ := hI.live p o hp
      refine ⟨xs, h1, ?_⟩
      rcases h2 with h2 | ⟨b', h3, h4, h5, h6, h7⟩
      · exact .inl h2
      · refine .inr ⟨b', h3, h4, h5, ?_, h7⟩
        simp only [upd_ne _ _ (hne hp h3)]
        exact h6
  · by_cases hpi : p = i
    · by_cases hpi' : p' = i
      · rw [hpi, hpi']
      · subst hpi
        simp only [upd_same, Option.some.injEq] at hp
        subst hp; cases ho
        simp only [upd_ne _ _ hpi'] at hp'
        exact (hne hp' ho' rfl).elim
    · by_cases hpi' : p' = i
      · subst hpi'
        simp only [upd_same, Option.some.injEq] at hp'
        subst hp'; cases ho'
        simp only [upd_ne _ _ hpi] at hp
        exact (hne hp ho rfl).elim
      · simp only [upd_ne _ _ hpi, upd_ne _ _ hpi'] at hp hp'
        exact hI.inj p p' o o' b hp hp' ho ho'
  · by_cases hbb : b = h.next
    · subst hbb; exact ⟨i, _, upd_same _ _ _, rfl⟩
    · simp only [upd_ne _ _ hbb] at hb
      obtain ⟨p, o, h1, h2⟩ := hI.owned b c' hb
      refine ⟨p, o, ?_, h2⟩
      have hpi : p ≠ i := fun hp => by subst hp; rw [hi o h1] at h2; cases h2
      simp only [upd_ne _ _ hpi]
      exact h1
  · by_cases hbb : b = h.next
    · subst hbb; simp at hb
    · simp only [upd_ne _ _ hbb] at hb; exact hI.empty b hb
  · have hbb : b ≠ h.next := fun he => by subst he; simp at hb; omega
    simp only [upd_ne _ _ hbb]
    exact hI.fresh b (by simp at hb; omega)

/-- the elements of a vector are replaced -/
theorem Inv.resize (hI : Inv L h V cont) {o : Storage} {b : Nat} {ys : List ν} (hi : h.objs i = some o) (hb : o.block = some b) (hy : ys.length ≤ o.cap) :
    Inv L { h with objs := upd h.objs i (some { o with siz := ys.length }) } (upd V i (some ys)) (upd cont b ys) := by
  obtain ⟨xs, hx, hh⟩ := hI.live i o hi
  obtain ⟨b1, hb1, _, _, hcap, _, hmax⟩ : ∃ b, o.block = some b ∧ xs = cont b ∧ o.siz = (cont b).length ∧ h.blk b = some o.cap ∧ (cont b).length ≤ o.cap ∧ o.cap ≤ L.max := by
    rcases hh with ⟨rfl, _⟩ | hh
    · cases hb
    · exact hh
  rw [hb] at hb1; cases hb1
  refine ⟨fun p hp => ?_, fun p o2 hp => ?_, fun p p' o2 o2' b' hp hp' ho ho' => ?_, fun b' c hb' => ?_, fun b' hb' => ?_, hI.fresh⟩
  · by_cases hpi : p = i
    · subst hpi; simp at hp
    · rw [upd_ne _ _ hpi]; exact hI.dead p (by simpa [upd_ne _ _ hpi] using hp)
  · by_cases hpi : p = i
    · subst hpi
      simp only [upd_same, Option.some.injEq] at hp
      subst hp
      exact ⟨ys, upd_same _ _ _, .inr ⟨b, hb, by simp, by simp, hcap, by simpa using hy, hmax⟩⟩
    · simp only [upd_ne _ _ hpi] at hp ⊢
      obtain ⟨xs, h1, h2⟩ := hI.live p o2 hp
      refine ⟨xs, h1, ?_⟩
      rcases h2 with h2 | ⟨b', h3, h4, h5, h6, h7⟩
      · exact .inl h2
      · have hbb : b' ≠ b := fun he => hpi (hI.inj p i o2 o b hp hi (he ▸ h3) hb)
        refine .inr ⟨b', h3, ?_, ?_, h6, ?_⟩
        · rw [upd_ne _ _ hbb]; exact h4
        · rw [upd_ne _ _ hbb]; exact h5
        · rw [upd_ne _ _ hbb]; exact h7
  · have key : ∀ {q : Nat} {a : Storage}, upd h.objs i (some { o with siz := ys.length }) q = some a → ∃ a', h.objs q = some a' ∧ a'.block = a.block := fun {q a} hq => by
      by_cases hqi : q = i
      · subst hqi
        simp only [upd_same, Option.some.injEq] at hq
        subst hq
        exact ⟨o, hi, rfl⟩
      · rw [upd_ne _ _ hqi] at hq; exact ⟨a, hq, rfl⟩
    obtain ⟨a, h1, h2⟩ := key hp
    obtain ⟨a', h1', h2'⟩ := key hp'
    exact hI.inj p p' a a' b' h1 h1' (h2.trans ho) (h2'.trans ho')
  · obtain ⟨p, o2, h1, h2⟩ := hI.owned b' c hb'
    by_cases hpi : p = i
    · subst hpi
      rw [hi] at h1; cases h1
      exact ⟨p, _, upd_same _ _ _, h2⟩
    · exact ⟨p, o2, by simp only [upd_ne _ _ hpi]; exact h1, h2⟩
  · have hbb : b' ≠ b := fun he => by subst he; simp only at hb'; rw [hcap] at hb'; cases hb'
    rw [upd_ne _ _ hbb]
    exact hI.empty b' hb'

/-! ### the functions -/

variable {s : St σ}

theorem release_run (hL : Laws C Rep) (hI : Inv L s.own V cont) (hr : Rep s.mem (cells L cont)) {o : Storage} (hi : s.own.objs i = some o) :
    ∃ h' t cont', release C L o s = .ok () ⟨h', t⟩ ∧ h'.objs = s.own.objs ∧
      Inv L { h' with objs := upd h'.objs i (some ⟨none, 0, 0⟩) } (upd V i (some [])) cont' ∧ Rep t (cells L cont') := by
  obtain ⟨xs, hx, hh⟩ := hI.live i o hi
  rcases hh with ⟨rfl, _⟩ | ⟨b, hb, _, hs, hc, hle, hmax⟩
  · exact ⟨s.own, s.mem, cont, rfl, rfl, hI.blank fun o ho => by rw [hi] at ho; cases ho; rfl, hr⟩
  · obtain ⟨t, W', h1, h2, h3, h4⟩ := destroyN_run (b := b) hL hmax o.siz 0 s (cells L cont) hc (by omega) hr fun k _ hk => by
      rw [cells_at _ _ (by omega)]
      exact ⟨_, List.getElem?_eq_getElem (by omega)⟩
    refine ⟨{ s.own with blk := upd s.own.blk b none }, t, upd cont b [], ?_, rfl, hI.release hi hb, ?_⟩
    · rw [release, hb]
      simp only
      rw [M.bind_ok h1, free]
      simp only [hc]
    · rw [cells_ext (W := W') (cont := upd cont b []) fun q k hk => ?_] at h2
      · exact h2
      · by_cases hq : q = b
        · subst hq
          rw [upd_same]
          by_cases hks : k < o.siz
          · rw [h3 k (Nat.zero_le _) (by omega)]; rfl
          · rw [h4 _ fun k' _ hk' he => by have := (cell_inj hk (by omega) he).2; omega, cells_at _ _ hk, List.getElem?_eq_none (by omega)]; rfl
        · rw [h4 _ fun k' _ hk' he => hq (cell_inj hk (by omega) he).1, cells_at _ _ hk, upd_ne _ _ hq]

theorem obj_run {o : Storage} (hi : s.own.objs i = some o) : obj i s = .ok o s := by simp [obj, hi]

theorem dtorStorage_run (hL : Laws C Rep) (h : RawRep L Rep s V) {xs : List ν} (hx : V i = some xs) : ∃ s', dtorStorage C L i s = .ok () s' ∧ RawRep L Rep s' (upd V i none) := by
  obtain ⟨cont, hI, hr⟩ := h
  obtain ⟨o, ho, _⟩ := hI.get hx
  obtain ⟨h', t, cont', h1, h2, h3, h4⟩ := release_run hL hI hr ho
  refine ⟨⟨{ h' with objs := upd h'.objs i none }, t⟩, M.noexcept_ok ?_, cont', ?_, h4⟩
  · rw [M.bind_ok (obj_run ho), M.bind_ok h1]
    rfl
  · have := h3.drop (i := i) fun o ho => by simp only [upd_same, Option.some.injEq] at ho; rw [← ho]
    simp only [upd_upd] at this
    exact this

theorem moveStorage_run (h : RawRep L Rep s V) (hi : V i = none) {ys : List ν} (hy : V j = some ys) :
    ∃ s', moveStorage i j s = .ok () s' ∧ RawRep L Rep s' (upd (upd V j (some [])) i (some ys)) := by
  have hij : i ≠ j := fun he => by rw [he, hy] at hi; cases hi
  obtain ⟨cont, hI, hr⟩ := h
  obtain ⟨o, ho, _⟩ := hI.get hy
  refine ⟨⟨{ s.own with objs := upd (upd s.own.objs j (some ⟨none, 0, 0⟩)) i (some o) }, s.mem⟩, M.noexcept_ok (by rw [M.bind_ok (obj_run ho)]; rfl), cont, ?_, hr⟩
  have := (hI.blank (i := i) fun o ho => by rw [hI.gone hi] at ho; cases ho).swap (i := i) (j := j) (o := ⟨none, 0, 0⟩) (o' := o) (xs := []) (ys := ys)
    (upd_same _ _ _) (by simp only [upd_ne _ _ (Ne.symm hij)]; exact ho) (upd_same _ _ _) (by rw [upd_ne _ _ (Ne.symm hij)]; exact hy)
  simp only [upd_upd] at this
  rw [upd_comm _ _ _ hij, upd_comm V _ _ hij] at this
  exact this

theorem moveAssignStorage_run (hL : Laws C Rep) (h : RawRep L Rep s V) (hij : i ≠ j) {xs ys : List ν} (hx : V i = some xs) (hy : V j = some ys) :
    ∃ s', moveAssignStorage C L i j s = .ok () s' ∧ RawRep L Rep s' (upd (upd V j (some [])) i (some ys)) := by
  obtain ⟨cont, hI, hr⟩ := h
  obtain ⟨o, ho, _⟩ := hI.get hx
  obtain ⟨o', ho', _⟩ := hI.get hy
  obtain ⟨h', t, cont', h1, h2, h3, h4⟩ := release_run hL hI hr ho
  refine ⟨⟨{ h' with objs := upd (upd h'.objs j (some ⟨none, 0, 0⟩)) i (some o') }, t⟩, M.noexcept_ok ?_, cont', ?_, h4⟩
  · rw [if_pos hij, M.bind_ok (obj_run ho), M.bind_ok h1, M.bind_ok (obj_run (s := ⟨h', t⟩) (by rw [h2]; exact ho'))]
    rfl
  · have := h3.swap (i := i) (j := j) (o := ⟨none, 0, 0⟩) (o' := o') (xs := []) (ys := ys)
      (upd_same _ _ _) (by simp only [upd_ne _ _ (Ne.symm hij), h2]; exact ho') (upd_same _ _ _) (by rw [upd_ne _ _ (Ne.symm hij)]; exact hy)
    simp only [upd_upd] at this
    rw [upd_comm _ _ _ hij, upd_comm V _ _ hij] at this
    exact this

/-- the elements of a vector are copied behind those of a block -/
theorem copyFrom_res (hL : Laws C Rep) (hr : Rep s.mem (cells L cont)) {b c : Nat} (hb : s.own.blk b = some c) (hc : c ≤ L.max) {o' : Storage} {ys : List ν}
    (ho : Holds L s.own cont o' ys) (hle : (cont b).length + ys.length ≤ c) :
    Res (copyN C L (some b) o'.block (cont b).length 0 o'.siz s) (fun s' => s'.own = s.own ∧ Rep s'.mem (cells L (upd cont b (cont b ++ ys))))
      (fun s' => s'.own = s.own ∧ Rep s'.mem (cells L cont)) := by
  rcases ho with ⟨rfl, rfl⟩ | ⟨b', hb', hy, hs, hc', hle', hmax⟩
  · exact .ok rfl ⟨rfl, by rw [List.append_nil, upd_self]; exact hr⟩
  · rw [hb']
    subst hy
    refine (copyN_res (b := b) (b' := b') hL hc hmax o'.siz (cont b).length 0 s (cells L cont) hb hc' (by omega) (by omega) hr
      (fun k hk => by rw [cells_at _ _ (by omega)]; exact List.getElem?_eq_none (by omega))
      (fun k hk => by rw [cells_at _ _ (by omega)]; exact ⟨_, List.getElem?_eq_getElem (by omega)⟩)).mono ?_ fun s' hs => hs
    rintro s' ⟨h1, W', h2, h3, h4⟩
    refine ⟨h1, ?_⟩
    rw [cells_ext (W := W') (cont := upd cont b (cont b ++ cont b')) fun q k hk => ?_] at h2
    · exact h2
    · by_cases hq : q = b
      · subst hq
        rw [upd_same]
        by_cases hk1 : k < (cont q).length
        · rw [List.getElem?_append_left hk1, h4 _ fun k' hk' he => by have := (cell_inj hk (by omega) he).2; omega, cells_at _ _ hk]
        · rw [List.getElem?_append_right (by omega)]
          by_cases hk2 : k < (cont q).length + o'.siz
          · have := h3 (k - (cont q).length) (by omega)
            rw [show (cont q).length + (k - (cont q).length) = k by omega, cells_at _ _ (by omega), Nat.zero_add] at this
            exact this
          · rw [h4 _ fun k' hk' he => by have := (cell_inj hk (by omega) he).2; omega, cells_at _ _ hk, List.getElem?_eq_none (by omega), List.getElem?_eq_none (by omega)]
      · rw [h4 _ fun k' hk' he => hq (cell_inj hk (by omega) he).1, cells_at _ _ hk, upd_ne _ _ hq]

theorem assignImpl_res (hL : Laws C Rep) (hR : R.Correct) (h : RawRep L Rep s V) (h0 : V 0 = none) {xs ys : List ν} (hx : V i = some xs) (hy : V j = some ys) :
    Res (assignImpl C L R i j s) (fun s' => RawRep L Rep s' (upd V i (some ys))) (fun s' => RawRep L Rep s' V) := by
  have hi0 : i ≠ 0 := fun he => by rw [he, h0] at hx; cases hx
  have hj0 : j ≠ 0 := fun he => by rw [he, h0] at hy; cases hy
  obtain ⟨cont, hI, hr⟩ := h
  obtain ⟨o, ho, hh⟩ := hI.get hx
  obtain ⟨o', ho', hh'⟩ := hI.get hy
  have hsx := hh.siz
  have hsy := hh'.siz
  have hcx := hh.cap
  have hcy := hh'.cap
  have hmax := L.le
  have hsz : szAdd o.siz o'.siz = o.siz + o'.siz := szAdd_eq (by
    have : ptrdiffMax + ptrdiffMax < szMod := by decide
    omega)
  unfold assignImpl
  rw [M.bind_ok (obj_run ho), M.bind_ok (obj_run ho'), hsz]
  by_cases hfit : o.siz + o'.siz ≤ o.cap
  · rw [if_pos hfit]
    rcases hh with ⟨rfl, rfl⟩ | ⟨b, hb, hxb, hs, hc, hle, hm⟩
    · have hn : o'.siz = 0 := by simpa using hfit
      have hys : ys = [] := List.eq_nil_of_length_eq_zero (by omega)
      have hsw : R.swaps 0 0 = [] := by
        cases hl : R.swaps 0 0 with
        | nil => rfl
        | cons p l => have := hR.2 0 0 p (by rw [hl]; exact List.mem_cons_self); omega
      simp only [hn, hsw]
      refine .ok (s := ⟨{ s.own with objs := upd s.own.objs i (some ⟨none, 0, 0⟩) }, s.mem⟩) ?_ ⟨cont, ?_, hr⟩
      · show setSize i 0 s = _
        unfold setSize
        rw [M.bind_ok (obj_run ho)]
        rfl
      · rw [upd_eq _ _ _ ho, hys, upd_eq _ _ _ hx]; exact hI
    · subst hxb
      rw [hb, hs]
      rcases copyFrom_res hL hr hc hm hh' (by omega) with ⟨s1, h1, h2, h3⟩ | ⟨e, s1, h1, h2, h3⟩
      · rw [M.bind_ok h1]
        obtain ⟨t2, h4, h5⟩ := swapAll_run (cont := cont) hL hm (R.swaps (cont b).length o'.siz) (cont b ++ ys) s1 (by rw [h2]; exact hc)
          (by rw [List.length_append]; omega) (fun p hp => by rw [List.length_append, ← hsy]; exact hR.2 _ _ p hp) h3
        rw [hsy, hR.1] at h5
        rw [M.bind_ok h4]
        obtain ⟨t3, W', h6, h7, h8, h9⟩ := destroyN_run (b := b) hL hm (cont b).length o'.siz ⟨s1.own, t2⟩ _ (by simp only [h2]; exact hc) (by omega) h5 fun k hk1 hk2 => by
          rw [cells_at _ _ (by omega), upd_same]
          exact ⟨_, List.getElem?_eq_getElem (by rw [List.length_append]; omega)⟩
        rw [M.bind_ok h6]
        have h10 : W' = cells L (upd cont b ys) := cells_ext fun q k hk => by
          by_cases hq : q = b
          · subst hq
            rw [upd_same]
            by_cases hk1 : k < ys.length
            · rw [h9 _ fun k' hk3 hk4 he => by have := (cell_inj hk (by omega) he).2; omega, cells_at _ _ hk, upd_same, List.getElem?_append_left hk1]
            · rw [List.getElem?_eq_none (by omega)]
              by_cases hk2 : k < o'.siz + (cont q).length
              · exact h8 k (by omega) hk2
              · rw [h9 _ fun k' hk3 hk4 he => by have := (cell_inj hk (by omega) he).2; omega, cells_at _ _ hk, upd_same,
                  List.getElem?_eq_none (by rw [List.length_append]; omega)]
          · rw [h9 _ fun k' hk3 hk4 he => hq (cell_inj hk (by omega) he).1, cells_at _ _ hk, upd_ne _ _ hq, upd_ne _ _ hq]
        rw [h10] at h7
        refine .ok (s := ⟨{ s.own with objs := upd s.own.objs i (some { o with siz := ys.length }) }, t3⟩) ?_
          ⟨_, hI.resize ho hb (by omega), h7⟩
        unfold setSize
        rw [M.bind_ok (obj_run (s := ⟨s1.own, t3⟩) (by rw [h2]; exact ho)), h2, hsy]
        rfl
      · rw [M.bind_exc h1]
        exact .inr ⟨e, s1, rfl, cont, by rw [h2]; exact hI, h3⟩
  · rw [if_neg hfit]
    have hn : o'.siz ≠ 0 := fun he => hfit (by omega)
    have hnew : ¬ L.max < o'.siz := by omega
    by_cases hf : s.own.fails 0 = true
    · refine .inr ⟨.badAlloc, ⟨{ s.own with fails := fun n => s.own.fails (n + 1) }, s.mem⟩, M.bind_exc ?_, cont, ⟨hI.dead, hI.live, hI.inj, hI.owned, hI.empty, hI.fresh⟩, hr⟩
      unfold newStorage
      rw [if_neg hn, if_neg hnew]
      refine M.bind_exc ?_
      rw [calloc, if_pos hf]
    · have hcap : Nat.max 10 o'.siz ≤ L.max := Nat.max_le.2 ⟨Nat.le_of_lt L.min, by omega⟩
      have hA := hI.alloc (i := 0) (fun o ho => by rw [hI.gone h0] at ho; cases ho) hcap (fun n => s.own.fails (n + 1))
      generalize hh1 : ({ s.own with objs := upd s.own.objs 0 (some ⟨some s.own.next, Nat.max 10 o'.siz, 0⟩), blk := upd s.own.blk s.own.next (some (Nat.max 10 o'.siz)), next := s.own.next + 1, fails := fun n => s.own.fails (n + 1) } : Heap) = h1 at hA
      have hrun : newStorage L 0 o'.siz s = .ok () ⟨h1, s.mem⟩ := by
        unfold newStorage
        rw [if_neg hn, if_neg hnew]
        refine (M.bind_ok (a := s.own.next) (s' := ⟨{ s.own with fails := fun n => s.own.fails (n + 1), blk := upd s.own.blk s.own.next (some (Nat.max 10 o'.siz)), next := s.own.next + 1 }, s.mem⟩) ?_).trans ?_
        · rw [calloc, if_neg hf]
        · rw [← hh1]; rfl
      rw [M.bind_ok hrun]
      have ht : h1.objs 0 = some ⟨some s.own.next, Nat.max 10 o'.siz, 0⟩ := by subst hh1; exact upd_same s.own.objs 0 _
      have hblk : h1.blk s.own.next = some (Nat.max 10 o'.siz) := by subst hh1; exact upd_same s.own.blk s.own.next _
      have hce : cont s.own.next = [] := hI.empty _ (hI.fresh _ (Nat.le_refl _))
      have hh1' : Holds L h1 cont o' ys := by
        obtain ⟨o2, h2, h3⟩ := hA.get (i := j) (by rw [upd_ne _ _ hj0]; exact hy)
        rw [← hh1] at h2
        simp only [upd_ne _ _ hj0] at h2
        rw [ho'] at h2; cases h2
        exact h3
      have hcopy := copyFrom_res (s := ⟨h1, s.mem⟩) (b := s.own.next) hL hr hblk hcap hh1' (by rw [hce, ← hsy]; simpa using Nat.le_max_right 10 o'.siz)
      rw [hce] at hcopy
      rcases hcopy with ⟨s2, h2, h3, h4⟩ | ⟨e, s2, h2, h3, h4⟩
      · have hB := hA.resize (i := 0) (b := s.own.next) (ys := ys) ht rfl (by rw [← hsy]; exact Nat.le_max_right _ _)
        have hraw : RawRep L Rep ⟨{ h1 with objs := upd h1.objs 0 (some ⟨some s.own.next, Nat.max 10 o'.siz, ys.length⟩) }, s2.mem⟩ (upd V 0 (some ys)) := by
          refine ⟨_, ?_, h4⟩
          rw [upd_upd] at hB
          exact hB
        obtain ⟨s3, h5, h6⟩ := moveAssignStorage_run (i := i) (j := 0) (xs := xs) hL hraw hi0 (by rw [upd_ne _ _ hi0]; exact hx) (upd_same _ _ _)
        obtain ⟨s4, h7, h8⟩ := dtorStorage_run (i := 0) (xs := []) hL h6 ((upd_ne _ _ (Ne.symm hi0)).trans (upd_same _ _ _))
        refine .ok (s := s4) (M.withDtor_ok ?_ h7) ?_
        · rw [M.bind_ok (obj_run (s := ⟨h1, s.mem⟩) ht)]
          refine (M.bind_ok h2).trans ?_
          refine (M.bind_ok (s' := ⟨{ h1 with objs := upd h1.objs 0 (some ⟨some s.own.next, Nat.max 10 o'.siz, ys.length⟩) }, s2.mem⟩) (a := ()) ?_).trans h5
          unfold setSize
          rw [M.bind_ok (obj_run (s := s2) (by rw [h3]; exact ht)), hsy]
          show Out.ok () (⟨{ s2.own with objs := _ }, s2.mem⟩ : St σ) = _
          rw [h3]
        · rw [upd_upd, upd_comm _ _ _ hi0, upd_upd, upd_eq V 0 none h0] at h8
          exact h8
      · have hraw : RawRep L Rep s2 (upd V 0 (some [])) := ⟨cont, by rw [h3]; exact hA, h4⟩
        obtain ⟨s4, h7, h8⟩ := dtorStorage_run (i := 0) (xs := []) hL hraw (upd_same _ _ _)
        rw [upd_upd, upd_eq _ _ _ h0] at h8
        refine .inr ⟨e, s4, M.withDtor_exc ?_ h7, h8⟩
        rw [M.bind_ok (obj_run (s := ⟨h1, s.mem⟩) ht)]
        exact M.bind_exc h2

theorem copyVector_res (hL : Laws C Rep) (hR : R.Correct) (h : RawRep L Rep s V) (h0 : V 0 = none) (hi0 : i ≠ 0) (hi : V i = none) {ys : List ν} (hy : V j = some ys) :
    Res (copyVector C L R i j s) (fun s' => RawRep L Rep s' (upd V i (some ys))) (fun s' => RawRep L Rep s' V) := by
  have hij : i ≠ j := fun he => by rw [he, hy] at hi; cases hi
  obtain ⟨cont, hI, hr⟩ := h
  have hraw : RawRep L Rep ⟨{ s.own with objs := upd s.own.objs i (some ⟨none, 0, 0⟩) }, s.mem⟩ (upd V i (some [])) :=
    ⟨cont, hI.blank (i := i) (fun o ho => by rw [hI.gone hi] at ho; cases ho), hr⟩
  have hset : setObj i (some ⟨none, 0, 0⟩) s = .ok () ⟨{ s.own with objs := upd s.own.objs i (some ⟨none, 0, 0⟩) }, s.mem⟩ := rfl
  unfold copyVector
  rw [M.bind_ok hset]
  rcases assignImpl_res (i := i) (j := j) (xs := []) hL hR hraw ((upd_ne _ _ (Ne.symm hi0)).trans h0) (upd_same _ _ _) ((upd_ne _ _ (Ne.symm hij)).trans hy) with
    ⟨s', h1, h2⟩ | ⟨e, s', h1, h2⟩
  · rw [upd_upd] at h2
    exact .ok (M.onExc_ok h1) h2
  · obtain ⟨s'', h3, h4⟩ := dtorStorage_run (xs := []) hL h2 (upd_same _ _ _)
    rw [upd_upd, upd_eq _ _ _ hi] at h4
    exact .inr ⟨e, s'', M.onExc_exc h1 h3, h4⟩

theorem swapVector_run (h : RawRep L Rep s V) {xs ys : List ν} (hx : V i = some xs) (hy : V j = some ys) :
    ∃ s', swapVector i j s = .ok () s' ∧ RawRep L Rep s' (upd (upd V i (some ys)) j (some xs)) := by
  obtain ⟨cont, hI, hr⟩ := h
  obtain ⟨o, ho, _⟩ := hI.get hx
  obtain ⟨o', ho', _⟩ := hI.get hy
  refine ⟨⟨{ s.own with objs := upd (upd s.own.objs i (some o')) j (some o) }, s.mem⟩, M.noexcept_ok ?_, cont, hI.swap ho ho' hx hy, hr⟩
  rw [M.bind_ok (obj_run ho), M.bind_ok (obj_run ho')]
  rfl

/-- which vectors there are -/
def VecRep (L : Limit) (Rep : σ → (Nat → Option ν) → Prop) (s : St σ) (V : Nat → Option (List ν)) : Prop := RawRep L Rep s (outer V)

theorem vector_regular {Clean : σ → Prop} (h : Regular C Rep Clean) (hR : R.Correct) :
    Regular (vector C L R) (VecRep (ν := ν) L Rep) (fun s => Clean s.mem ∧ (∀ b, s.own.blk b = none) ∧ ∀ i, s.own.objs i = none) where
  determ {s V V'} h1 h2 := by
    obtain ⟨cont, hI, hr⟩ := h1
    obtain ⟨cont', hI', hr'⟩ := h2
    have hc := h.determ hr hr'
    have hb : ∀ b, (cont b).length ≤ L.max → (cont' b).length ≤ L.max → cont b = cont' b := fun b hb hb' => by
      refine List.ext_getElem? fun k => ?_
      by_cases hk : k ≤ L.max
      · rw [← cells_at (L := L) cont b (by omega), ← cells_at (L := L) cont' b (by omega), hc]
      · rw [List.getElem?_eq_none (by omega), List.getElem?_eq_none (by omega)]
    funext i
    show outer V (i + 1) = outer V' (i + 1)
    cases ho : s.own.objs (i + 1) with
    | none => rw [hI.dead _ ho, hI'.dead _ ho]
    | some o =>
      obtain ⟨xs, h1, h2⟩ := hI.live _ o ho
      obtain ⟨xs', h1', h2'⟩ := hI'.live _ o ho
      rw [h1, h1']
      rcases h2 with ⟨rfl, rfl⟩ | ⟨b, hb1, rfl, hs, hbc, hle, hm⟩ <;> rcases h2' with ⟨he, rfl⟩ | ⟨b', hb1', rfl, hs', hbc', hle', hm'⟩
      · rfl
      · cases hb1'
      · rw [he] at hb1; cases hb1
      · rw [hb1] at hb1'
        cases hb1'
        rw [hb b (by omega) (by omega)]
  clean {s} h1 := by
    have : outer (fun _ => none : Nat → Option (List ν)) = fun _ => none := by funext p; cases p <;> rfl
    rw [VecRep, this] at h1
    obtain ⟨cont, hI, hr⟩ := h1
    have ho : ∀ i, s.own.objs i = none := fun i => hI.gone rfl
    have hb : ∀ b, s.own.blk b = none := fun b => by
      cases hb : s.own.blk b with
      | none => rfl
      | some c =>
        obtain ⟨i, o, h1, _⟩ := hI.owned b c hb
        rw [ho i] at h1; cases h1
    refine ⟨h.clean ?_, hb, ho⟩
    have hc : cells L cont = fun _ => none := by
      funext p
      show (cont (p / (L.max + 1)))[p % (L.max + 1)]? = none
      rw [hI.empty _ (hb _)]; rfl
    rw [hc] at hr
    exact hr
  copy {s V i j y} hr hi hj := (copyVector_res (i := i + 1) (j := j + 1) h.toLaws hR hr rfl (Nat.succ_ne_zero _) hi hj).mono
    (fun s' hs => by rw [VecRep, outer_upd]; exact hs) fun s' hs => hs
  move {s V i j y} hr hi hj := by
    obtain ⟨s', h1, h2⟩ := moveStorage_run (i := i + 1) (j := j + 1) hr hi hj
    exact ⟨s', [], h1, by rw [VecRep, outer_upd, outer_upd]; exact h2⟩
  assign {s V i j x y} hr hij hi hj := by
    have : assignVector C L R (i + 1) (j + 1) s = assignImpl C L R (i + 1) (j + 1) s := by
      rw [assignVector, if_pos fun he => hij (Nat.succ.inj he)]
    show Res (assignVector C L R (i + 1) (j + 1) s) _ _
    rw [this]
    exact (assignImpl_res (i := i + 1) (j := j + 1) h.toLaws hR hr rfl hi hj).mono (fun s' hs => by rw [VecRep, outer_upd]; exact hs)
      fun s' hs => ⟨x, by rw [upd_eq _ _ _ hi]; exact hs⟩
  assignSelf {s V i x} hr hi := by
    refine .ok (s := s) ?_ hr
    show assignVector C L R (i + 1) (i + 1) s = _
    rw [assignVector, if_neg (fun h => h rfl)]
    rfl
  moveAssign {s V i j x y} hr hij hi hj := by
    obtain ⟨s', h1, h2⟩ := moveAssignStorage_run (i := i + 1) (j := j + 1) h.toLaws hr (fun he => hij (Nat.succ.inj he)) hi hj
    exact ⟨s', [], h1, by rw [VecRep, outer_upd, outer_upd]; exact h2⟩
  moveAssignSelf {s V i x} hr hi := by
    refine ⟨s, x, M.noexcept_ok ?_, by rw [upd_eq _ _ _ hi]; exact hr⟩
    rw [if_neg (fun h => h rfl)]
    rfl
  swap {s V i j x y} hr hi hj := by
    obtain ⟨s', h1, h2⟩ := swapVector_run (i := i + 1) (j := j + 1) hr hi hj
    exact ⟨s', h1, by rw [VecRep, outer_upd, outer_upd]; exact h2⟩
  dtor {s V i x} hr hi := by
    obtain ⟨s', h1, h2⟩ := dtorStorage_run (i := i + 1) h.toLaws hr hi
    exact ⟨s', h1, by rw [VecRep, outer_upd]; exact h2⟩

end Ptl.Nested.Vec
