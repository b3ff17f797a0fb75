import Verif.Str.Scope

/-! # Effect of the modifiers that take characters, counts and initializer lists -/

namespace Ptl.Str

/-- what an exception may leave of string `v` with contents `xs`: everything, but an exception thrown by an iterator
may have overwritten bytes from offset `size()` on -/
def Kept (v v' : Vw) (xs : List UInt8) (e : Exc) : Prop :=
  v'.base = v.base ∧ v'.cap = v.cap ∧ (∃ t', Holds v' xs t') ∧ (e ≠ .user → v' = v)

/-- a call on string `i`: it returns `ret` and the string holds `ys`, in the same buffer if `stay`, otherwise in one of the size
needed; or it throws, because of a client's iterator if `stay` -/
def Runs {β : Type} (m : SM β) (s : St) (i : Id) (v : Vw) (xs : List UInt8) (src : List Arg) (ys : List UInt8) (stay : Prop)
    (ret : Vw → β) : Prop :=
  (∃ s' v', m s = .ok (ret v') s' ∧ Step s s' (upd (abs s) i (some v')) ∧ Holds v' ys 0 ∧
    (stay → v'.base = v.base ∧ v'.cap = v.cap) ∧ (¬ stay → v'.cap = fit ys.length)) ∨
  (∃ s' e v', m s = .exc e s' ∧ Step s s' (upd (abs s) i (some v')) ∧ Kept v v' xs e ∧ Why s s' src ys.length e ∧
    (stay → e = .user))

theorem capFor_mono {m n : Nat} (h : m ≤ n) : capFor m ≤ capFor n := by unfold capFor; omega

theorem Why.le {s s' : St} {src src' : List Arg} {m n : Nat} {e : Exc} (h : Why s s' src m e) (hmn : m ≤ n)
    (hs : ∀ a, a ∈ src → a ∈ src') : Why s s' src' n e := by
  cases h with
  | length h => exact .length (by omega)
  | mem h k => exact .mem (by omega) (k.imp (fun h => Nat.le_trans h (capFor_mono hmn)) id)
  | user h k => exact .user (hs _ h) k

section basic
variable {s : St} (hw : WF s) {i : Id} {v : Vw} (hv : abs s i = some v) {xs : List UInt8} {t : UInt8} (hh : Holds v xs t)
include hw hv hh

/-- nothing happened, but an exception -/
theorem kept_same {s' : St} (st : Step s s' (abs s)) (e : Exc) :
    Step s s' (upd (abs s) i (some v)) ∧ Kept v v xs e :=
  ⟨by rw [upd_eq _ _ _ hv]; exact st, rfl, rfl, ⟨t, hh⟩, fun _ => rfl⟩

theorem len_lt : xs.length < ptrdiffMax := Nat.lt_of_le_of_lt (hh.len (hw.gd hv)) (hw.lt hv)

theorem pushBack_run (ch : UInt8) :
    (∃ s' v', pushBack i ch s = .ok ⟨some v'.base, xs.length⟩ s' ∧ Step s s' (upd (abs s) i (some v')) ∧ Holds v' (xs ++ [ch]) 0 ∧
      v'.cap = (if xs.length = v.cap then capFor (xs.length + 1) else v.cap) ∧ (xs.length ≠ v.cap → v'.base = v.base) ∧
      s'.moves = s.moves + (if xs.length = v.cap then xs.length + 1 else 0)) ∨
    (∃ s' e, pushBack i ch s = .exc e s' ∧ Step s s' (abs s) ∧ Why s s' [] (xs.length + 1) e ∧ xs.length = v.cap) := by
  have hlt := len_lt hw hv hh
  have hle := hh.len (hw.gd hv)
  have hadd : szAdd xs.length 1 = xs.length + 1 := szAdd_eq (by unfold ptrdiffMax at hlt; unfold szMod; omega)
  have hsub : szSub (xs.length + 1) 1 = xs.length := by
    rw [szSub_eq (by omega) (by unfold ptrdiffMax at hlt; unfold szMod; omega)]; omega
  have h22 : 22 ≤ v.cap := by rcases (hw.gd hv).shape with ⟨_, h⟩ | ⟨_, _, h, _⟩ <;> omega
  have hreplace : ∀ (n : Nat), xs.take (xs.length + 1) ++ List.replicate (xs.length + 1 - xs.length) ch = xs ++ [ch] := by
    intro _; rw [List.take_of_length_le (by omega)]; simp
  unfold pushBack
  by_cases hc : xs.length = v.cap
  · have hne : xs ≠ [] := by rintro rfl; simp at hc; omega
    rcases reserve_run hw hv hh (xs.length + 1) with ⟨s1, v1, t1, hr1, st1, hh1, ht1, hc1, hsame, hmoves⟩ | ⟨s', e, hr, st, hy, _⟩
    · have hc1' : v1.cap = capFor (xs.length + 1) := by rw [hc1, if_neg (by omega)]
      have hfit : xs.length + 1 ≤ v1.cap := by rw [hc1']; exact capFor_ge _
      rcases resize_run st1.wf st1.at hh1 (xs.length + 1) ch with ⟨s2, v2, hr2, st2, hh2, hc2, hb2, hm2⟩ | ⟨_, _, _, _, _, h⟩
      · left
        rw [hreplace 0] at hh2
        refine ⟨s2, v2, ?_, st1.then st2, hh2, by rw [hc2, if_pos hfit, if_pos hc, hc1'], fun h => absurd hc h, ?_⟩
        · mstep (size_ok hw hv)
          mstep (capacity_ok hw hv)
          rw [hh.1, if_pos hc, hadd]
          mstep hr1
          mstep (size_ok st1.wf st1.at)
          rw [hh1.1, hadd]
          mstep hr2
          unfold back index
          mstep (size_ok st2.wf st2.at)
          mstep (data_ok st2.wf st2.at)
          rw [hh2.1]
          simp [Ptr.add, hsub]
        · rw [hm2, (hmoves (by omega)).2, if_neg hne, if_pos (Or.inl hfit : xs.length + 1 ≤ v1.cap ∨ xs = []), if_pos hc, Nat.add_zero]
      · omega
    · right
      refine ⟨s', e, ?_, st, hy, hc⟩
      mstep (size_ok hw hv)
      mstep (capacity_ok hw hv)
      rw [hh.1, if_pos hc, hadd]
      exact M.bind_exc hr
  · rcases resize_run hw hv hh (xs.length + 1) ch with ⟨s2, v2, hr2, st2, hh2, hc2, hb2, hm2⟩ | ⟨_, _, _, _, _, h⟩
    · left
      rw [hreplace 0] at hh2
      have hfit : xs.length + 1 ≤ v.cap := by omega
      refine ⟨s2, v2, ?_, st2, hh2, by rw [hc2, if_pos hfit, if_neg hc], fun _ => hb2 hfit, by rw [hm2, if_pos (.inl hfit), if_neg hc]⟩
      mstep (size_ok hw hv)
      mstep (capacity_ok hw hv)
      rw [hh.1, if_neg hc]
      refine Eq.trans (M.bind_ok (a := ()) (s' := s) rfl) ?_
      mstep (size_ok hw hv)
      rw [hh.1, hadd]
      mstep hr2
      unfold back index
      mstep (size_ok st2.wf st2.at)
      mstep (data_ok st2.wf st2.at)
      rw [hh2.1]
      simp [Ptr.add, hsub]
    · omega

/-- `set_size` to a smaller size -/
theorem truncate_ok {ys zs : List UInt8} (he : xs = ys ++ zs) :
    ∃ s' v', setSize i ys.length s = .ok () s' ∧ Quiet s s' (upd (abs s) i (some v')) ∧ Holds v' ys 0 ∧ v'.base = v.base ∧
      v'.cap = v.cap := by
  have hle := hh.len (hw.gd hv)
  obtain ⟨s', hr, q⟩ := setSize_any hw hv (n := ys.length) (by rw [he] at hle; simp at hle; omega)
  obtain ⟨_, rest, hrest⟩ := hh
  refine ⟨s', _, hr, q, ⟨rfl, v.buf.drop (ys.length + 1), ?_⟩, rfl, rfl⟩
  simp only []
  rw [hrest, he]
  simp

theorem popBack_ok {ys : List UInt8} {c : UInt8} (he : xs = ys ++ [c]) :
    ∃ s' v', popBack i s = .ok () s' ∧ Quiet s s' (upd (abs s) i (some v')) ∧ Holds v' ys 0 ∧ v'.base = v.base ∧ v'.cap = v.cap := by
  obtain ⟨s', v', hr, rest⟩ := truncate_ok hw hv hh he
  have hlt := len_lt hw hv hh
  refine ⟨s', v', ?_, rest⟩
  unfold popBack
  refine M.noexcept_ok ?_
  mstep (size_ok hw hv)
  have : szSub v.siz 1 = ys.length := by
    rw [hh.1, szSub_eq (by rw [he]; simp) (by unfold ptrdiffMax at hlt; unfold szMod; omega), he]; simp
  rw [this]
  exact hr

theorem clear_any : ∃ s' v', clear i s = .ok () s' ∧ Quiet s s' (upd (abs s) i (some v')) ∧ Holds v' [] (if xs = [] then t else 0) ∧
    v'.base = v.base ∧ v'.cap = v.cap := by
  unfold clear
  by_cases h0 : v.siz = 0
  · have hx : xs = [] := List.length_eq_zero_iff.1 (by rw [← hh.1, h0])
    subst hx
    refine ⟨s, v, ?_, by rw [upd_eq _ _ _ hv]; exact Quiet.refl hw, by simpa using hh, rfl, rfl⟩
    refine M.noexcept_ok ?_
    mstep (empty_ok hw hv)
    simp [h0]
  · have hx : xs ≠ [] := by rintro rfl; exact h0 hh.1
    obtain ⟨s', v', hr, rest⟩ := truncate_ok hw hv hh (ys := []) (zs := xs) rfl
    refine ⟨s', v', ?_, by simpa [hx] using rest⟩
    refine M.noexcept_ok ?_
    mstep (empty_ok hw hv)
    simp only [beq_iff_eq, h0, if_false]
    exact hr

theorem erase_ok {pre mid post : List UInt8} (he : xs = pre ++ mid ++ post) :
    ∃ s' v', erase i ⟨some v.base, pre.length⟩ ⟨some v.base, pre.length + mid.length⟩ s = .ok ⟨some v.base, pre.length⟩ s' ∧
      Quiet s s' (upd (abs s) i (some v')) ∧ Holds v' (pre ++ post) 0 ∧ v'.base = v.base ∧ v'.cap = v.cap := by
  have hlt := len_lt hw hv hh
  obtain ⟨hsz, rest, hrest⟩ := hh
  -- the bytes that are overwritten
  obtain ⟨X, Y, hXY, hXl⟩ : ∃ X Y, mid ++ post = X ++ Y ∧ X.length = post.length :=
    ⟨(mid ++ post).take post.length, (mid ++ post).drop post.length, (List.take_append_drop _ _).symm, by simp⟩
  have hbuf : v.buf = pre.map some ++ X.map some ++ (Y.map some ++ some t :: rest) := by
    rw [hrest, he]
    rw [List.append_assoc pre, hXY]; simp
  obtain ⟨s1, hr1, q1⟩ := writeN_ok hw hv (A := pre.map some) (X := X.map some) (B := Y.map some ++ some t :: rest) (bs := post)
    (off := pre.length) hbuf (by simp) (by simp [hXl])
  have hYl : Y.length = mid.length := by
    have := congrArg List.length hXY; simp at this; omega
  have hh1 : Holds { v with buf := pre.map some ++ post.map some ++ (Y.map some ++ some t :: rest) } ((pre ++ post) ++ Y) t :=
    ⟨by simp only [hsz, he]; simp; omega, rest, by simp⟩
  obtain ⟨s2, v2, hr2, q2, hh2, hb2, hc2⟩ := truncate_ok q1.wf q1.at hh1 rfl
  refine ⟨s2, v2, ?_, q1.then q2, hh2, hb2, hc2⟩
  unfold erase
  refine M.noexcept_ok ?_
  mstep (data_ok hw hv)
  mstep (size_ok hw hv)
  simp only [Ptr.add, Nat.zero_add]
  have hle : pre.length + mid.length ≤ v.siz := by rw [hsz, he]; simp
  mstep (distance_ok hle)
  have hn : v.siz - (pre.length + mid.length) = post.length := by rw [hsz, he]; simp; omega
  rw [hn]
  mstep (memmove_ok (readN_ok hw hv (A := pre.map some ++ mid.map some) (B := some t :: rest) (bs := post)
    (by rw [hrest, he]; simp) (by simp) rfl) hr1)
  mstep (size_ok q1.wf q1.at)
  mstep (distance_ok (by omega))
  have : szSub v.siz (pre.length + mid.length - pre.length) = (pre ++ post).length := by
    rw [szSub_eq (by omega) (by unfold ptrdiffMax at hlt; unfold szMod; omega)]; simp; omega
  simp only []
  rw [this]
  mstep hr2
  rfl

end basic

/-! ### `*_no_aliasing` -/

/-- `fill off` writes the bytes `bs` at offset `off` of string `i`, provided string `j` looks like `g` -/
def Puts (fill : Nat → SM Unit) (i : Id) (bs : List UInt8) (j : Id) (g : Option Vw) : Prop :=
  ∀ (s : St) (v : Vw) (A X B : List (Option UInt8)) (off : Nat), WF s → abs s i = some v → abs s j = g → v.buf = A ++ X ++ B →
    A.length = off → X.length = bs.length →
    ∃ s', fill off s = .ok () s' ∧ Quiet s s' (upd (abs s) i (some { v with buf := A ++ bs.map some ++ B }))

theorem putAt_puts (i : Id) (bs : List UInt8) (j : Id) (g : Option Vw) : Puts (fun off => putAt i off bs) i bs j g := by
  intro s v A X B off hw hv _ hb ho hX
  obtain ⟨s', hr, q⟩ := writeN_ok hw hv hb ho hX
  refine ⟨s', ?_, q⟩
  unfold putAt
  mstep (data_ok hw hv)
  simpa [Ptr.add] using hr

theorem fillAt_puts (i : Id) (n : Nat) (ch : UInt8) (j : Id) (g : Option Vw) :
    Puts (fun off => fillAt i off n ch) i (List.replicate n ch) j g := by
  intro s v A X B off hw hv _ hb ho hX
  obtain ⟨s', hr, q⟩ := writeN_ok hw hv hb ho hX
  refine ⟨s', ?_, q⟩
  unfold fillAt
  mstep (data_ok hw hv)
  simpa [Ptr.add, fill] using hr

theorem copyFrom_puts {i j : Id} {w : Vw} {bs : List UInt8} {u : UInt8} (hh : Holds w bs u) :
    Puts (fun off => copyFrom i j off) i bs j (some w) := by
  intro s v A X B off hw hv hj hb ho hX
  obtain ⟨s', hr, q⟩ := writeN_ok hw hv hb ho hX
  refine ⟨s', ?_, q⟩
  obtain ⟨hs, rest, hrest⟩ := hh
  unfold copyFrom
  mstep (data_ok hw hj)
  mstep (size_ok hw hj)
  mstep (data_ok hw hv)
  simp only [Ptr.add, Nat.zero_add]
  exact memmove_ok (readN_ok hw hj (A := []) (B := some u :: rest) (bs := bs) (by rw [hrest]; rfl) rfl hs.symm) hr

/-- what a growing `resize` makes of the capacity -/
theorem fit_grown {s : St} (hw : WF s) {i : Id} {v : Vw} (hv : abs s i = some v) {c n m : Nat}
    (hc : c = if n ≤ v.cap then v.cap else capFor n) (hn : ¬ n ≤ v.cap) (hm : m = n) : c = fit m := by
  have h22 : 22 ≤ v.cap := by rcases (hw.gd hv).shape with ⟨_, h⟩ | ⟨_, _, h, _⟩ <;> omega
  rw [hc, if_neg hn, hm, fit_big (by omega)]

section noalias
variable {s : St} (hw : WF s) {i : Id} {v : Vw} (hv : abs s i = some v) {xs : List UInt8} {t : UInt8} (hh : Holds v xs t)
  {fill : Nat → SM Unit} {bs : List UInt8} {j : Id} {g : Option Vw} (hp : Puts fill i bs j g) (hj : abs s j = g) (hji : j ≠ i)
include hw hv hh hp hj hji

theorem appendNoAliasing_run (hn : xs.length + bs.length < szMod) :
    Runs (appendNoAliasing i bs.length fill) s i v xs [] (xs ++ bs) (xs.length + bs.length ≤ v.cap) (fun _ => ()) := by
  have hadd := szAdd_eq hn
  rcases resize_run hw hv hh (xs.length + bs.length) 0 with ⟨s1, v1, hr1, st1, hh1, hc1, hb1, _⟩ | ⟨s', e, hr, st, hy, hc⟩
  · left
    rw [List.take_of_length_le (by omega), show xs.length + bs.length - xs.length = bs.length by omega] at hh1
    obtain ⟨hsz1, rest, hrest⟩ := hh1
    obtain ⟨s2, hr2, q2⟩ := hp s1 v1 (xs.map some) ((List.replicate bs.length 0).map some) (some 0 :: rest) xs.length st1.wf st1.at
      (by rw [st1.ne hji, hj]) (by rw [hrest]; simp) (by simp) (by simp)
    refine ⟨s2, _, ?_, st1.then q2.step, ⟨?_, rest, ?_⟩, ⟨fun h => ⟨hb1 h, ?_⟩, fun h => fit_grown hw hv hc1 h (by simp)⟩⟩
    · unfold appendNoAliasing
      mstep (size_ok hw hv)
      rw [hh.1, hadd]
      mstep hr1
      exact hr2
    · simp [hsz1]
    · simp
    · simp only []; rw [hc1, if_pos h]
  · right
    obtain ⟨k1, k2⟩ := kept_same hw hv hh st e
    refine ⟨s', e, v, ?_, k1, k2, by simpa using hy, fun h => by omega⟩
    unfold appendNoAliasing
    mstep (size_ok hw hv)
    rw [hh.1, hadd]
    exact M.bind_exc hr

theorem assignNoAliasing_run :
    Runs (assignNoAliasing i bs.length (fill 0)) s i v xs [] bs (bs.length ≤ v.cap) (fun _ => ()) := by
  rcases resize_run hw hv hh bs.length 0 with ⟨s1, v1, hr1, st1, hh1, hc1, hb1, _⟩ | ⟨s', e, hr, st, hy, hc⟩
  · left
    obtain ⟨hsz1, rest, hrest⟩ := hh1
    obtain ⟨s2, hr2, q2⟩ := hp s1 v1 [] ((xs.take bs.length ++ List.replicate (bs.length - xs.length) 0).map some) (some 0 :: rest) 0
      st1.wf st1.at (by rw [st1.ne hji, hj]) (by rw [hrest]; simp) (by simp) (by simp; omega)
    refine ⟨s2, _, ?_, st1.then q2.step, ⟨?_, rest, ?_⟩, ⟨fun h => ⟨hb1 h, ?_⟩, fun h => fit_grown hw hv hc1 h (by simp)⟩⟩
    · unfold assignNoAliasing
      mstep hr1
      exact hr2
    · simp only [hsz1]; simp; omega
    · simp
    · simp only []; rw [hc1, if_pos h]
  · right
    obtain ⟨k1, k2⟩ := kept_same hw hv hh st e
    exact ⟨s', e, v, M.bind_exc hr, k1, k2, hy, fun h => by omega⟩

theorem insertNoAliasing_run {pre post : List UInt8} (he : xs = pre ++ post) (hn : xs.length + bs.length < szMod) :
    Runs (insertNoAliasing i ⟨some v.base, pre.length⟩ bs.length fill) s i v xs [] (pre ++ bs ++ post)
      (xs.length + bs.length ≤ v.cap) (fun v' => ⟨some v'.base, pre.length⟩) := by
  have hadd := szAdd_eq hn
  rcases resize_run hw hv hh (xs.length + bs.length) 0 with ⟨s1, v1, hr1, st1, hh1, hc1, hb1, _⟩ | ⟨s', e, hr, st, hy, hc⟩
  · left
    rw [List.take_of_length_le (by omega), show xs.length + bs.length - xs.length = bs.length by omega] at hh1
    obtain ⟨hsz1, rest, hrest⟩ := hh1
    obtain ⟨X, Y, hXY, hXl⟩ : ∃ X Y, post ++ List.replicate bs.length 0 = X ++ Y ∧ X.length = bs.length :=
      ⟨(post ++ List.replicate bs.length 0).take bs.length, (post ++ List.replicate bs.length 0).drop bs.length,
        (List.take_append_drop _ _).symm, by simp⟩
    have hYl : Y.length = post.length := by have := congrArg List.length hXY; simp at this; omega
    obtain ⟨s2, hr2, q2⟩ := writeN_ok st1.wf st1.at (A := (pre ++ X).map some) (X := Y.map some) (B := some 0 :: rest) (bs := post)
      (off := pre.length + bs.length)
      (by rw [hrest, he, List.append_assoc pre, hXY]; simp) (by simp [hXl]) (by simp [hYl])
    obtain ⟨s3, hr3, q3⟩ := hp s2 _ (pre.map some) (X.map some) (post.map some ++ some 0 :: rest) pre.length q2.wf q2.at
      (by rw [q2.ne hji, st1.ne hji, hj]) (by simp) (by simp) (by simp [hXl])
    refine ⟨s3, _, ?_, st1.then (q2.then q3).step, ⟨?_, rest, ?_⟩, ⟨fun h => ⟨hb1 h, ?_⟩, fun h => fit_grown hw hv hc1 h (by subst he; simp; omega)⟩⟩
    · unfold insertNoAliasing
      mstep (size_ok hw hv)
      mstep (data_ok hw hv)
      mstep (distance_ok (by omega))
      rw [hh.1, hadd]
      mstep hr1
      mstep (data_ok st1.wf st1.at)
      mstep (size_ok st1.wf st1.at)
      simp only [Ptr.add, Nat.zero_add, Nat.sub_zero]
      have hle : pre.length ≤ xs.length := by rw [he]; simp
      mstep (distance_ok hle)
      have e1 : xs.length - pre.length = post.length := by rw [he]; simp
      have e2 : v1.siz - (xs.length - pre.length) = pre.length + bs.length := by
        rw [hsz1, he]; simp; omega
      rw [e2, e1]
      mstep (memmove_ok (readN_ok st1.wf st1.at (A := pre.map some) (B := (List.replicate bs.length 0).map some ++ some 0 :: rest) (bs := post)
        (by rw [hrest, he]; simp) (by simp) rfl) hr2)
      mstep hr3
      mstep (data_ok q3.wf q3.at)
      simp
    · simp only [hsz1, he]; simp; omega
    · simp
    · simp only []; rw [hc1, if_pos h]
  · right
    obtain ⟨k1, k2⟩ := kept_same hw hv hh st e
    refine ⟨s', e, v, ?_, k1, k2, hy.le (by rw [he]; simp; omega) (fun _ => id), fun h => by omega⟩
    unfold insertNoAliasing
    mstep (size_ok hw hv)
    mstep (data_ok hw hv)
    mstep (distance_ok (by omega))
    rw [hh.1, hadd]
    exact M.bind_exc hr

theorem replaceNoAliasing_run {pre mid post : List UInt8} (he : xs = pre ++ mid ++ post)
    (hn : xs.length + bs.length < szMod + mid.length) :
    Runs (replaceNoAliasing i ⟨some v.base, pre.length⟩ ⟨some v.base, pre.length + mid.length⟩ bs.length fill) s i v xs []
      (pre ++ bs ++ post) (pre.length + bs.length + post.length ≤ v.cap) (fun _ => ()) := by
  have hlx : xs.length = pre.length + mid.length + post.length := by rw [he]; simp; omega
  have h1 := data_ok hw hv
  have h2 : distance ⟨some v.base, 0⟩ ⟨some v.base, pre.length⟩ s = .ok pre.length s := distance_ok (by omega)
  have h3 : distance ⟨some v.base, pre.length⟩ ⟨some v.base, pre.length + mid.length⟩ s = .ok mid.length s := by
    rw [distance_ok (by omega)]; congr 1; omega
  by_cases hlt : mid.length < bs.length
  · have hadd : szAdd xs.length (bs.length - mid.length) = xs.length + (bs.length - mid.length) := szAdd_eq (by omega)
    rcases resize_run hw hv hh (xs.length + (bs.length - mid.length)) 0 with ⟨s1, v1, hr1, st1, hh1, hc1, hb1, _⟩ | ⟨s', e, hr, st, hy, hc⟩
    · left
      rw [List.take_of_length_le (by omega),
        show xs.length + (bs.length - mid.length) - xs.length = bs.length - mid.length by omega] at hh1
      obtain ⟨hsz1, rest, hrest⟩ := hh1
      obtain ⟨X, Y, hXY, hXl⟩ : ∃ X Y, mid ++ (post ++ List.replicate (bs.length - mid.length) 0) = X ++ Y ∧ X.length = bs.length :=
        ⟨(mid ++ (post ++ List.replicate (bs.length - mid.length) 0)).take bs.length,
          (mid ++ (post ++ List.replicate (bs.length - mid.length) 0)).drop bs.length,
          (List.take_append_drop _ _).symm, by simp; omega⟩
      have hYl : Y.length = post.length := by have := congrArg List.length hXY; simp at this; omega
      obtain ⟨s2, hr2, q2⟩ := writeN_ok st1.wf st1.at (A := (pre ++ X).map some) (X := Y.map some) (B := some 0 :: rest) (bs := post)
        (off := pre.length + bs.length)
        (by rw [hrest, he, List.append_assoc, List.append_assoc, List.append_assoc, hXY]; simp) (by simp [hXl]) (by simp [hYl])
      obtain ⟨s3, hr3, q3⟩ := hp s2 _ (pre.map some) (X.map some) (post.map some ++ some 0 :: rest) pre.length q2.wf q2.at
        (by rw [q2.ne hji, st1.ne hji, hj]) (by simp) (by simp) (by simp [hXl])
      refine ⟨s3, _, ?_, st1.then (q2.then q3).step, ⟨?_, rest, ?_⟩, ⟨fun h => ⟨hb1 (by omega), ?_⟩, fun h => fit_grown hw hv hc1 (by omega) (by simp; omega)⟩⟩
      · unfold replaceNoAliasing
        mstep h1
        mstep h2
        mstep h3
        rw [if_pos hlt]
        mstep (size_ok hw hv)
        rw [hh.1, hadd]
        mstep hr1
        mstep (data_ok st1.wf st1.at)
        mstep (size_ok st1.wf st1.at)
        simp only [Ptr.add, Nat.zero_add]
        mstep (distance_ok (by omega))
        have e1 : xs.length - (pre.length + mid.length) = post.length := by omega
        have e2 : v1.siz - (xs.length - (pre.length + mid.length)) = pre.length + bs.length := by
          rw [hsz1]; simp; omega
        rw [e2, e1]
        mstep (memmove_ok (readN_ok st1.wf st1.at (A := pre.map some ++ mid.map some)
          (B := (List.replicate (bs.length - mid.length) 0).map some ++ some 0 :: rest) (bs := post)
          (by rw [hrest, he]; simp) (by simp) rfl) hr2)
        exact hr3
      · simp only [hsz1]; simp; omega
      · simp
      · simp only []; rw [hc1, if_pos (by omega)]
    · right
      obtain ⟨k1, k2⟩ := kept_same hw hv hh st e
      refine ⟨s', e, v, ?_, k1, k2, hy.le (by simp; omega) (fun _ => id), fun h => by omega⟩
      unfold replaceNoAliasing
      mstep h1
      mstep h2
      mstep h3
      rw [if_pos hlt]
      mstep (size_ok hw hv)
      rw [hh.1, hadd]
      exact M.bind_exc hr
  · left
    have hle := hh.len (hw.gd hv)
    obtain ⟨hsz, rest, hrest⟩ := hh
    obtain ⟨X, Y, hXY, hXl⟩ : ∃ X Y, mid = X ++ Y ∧ X.length = bs.length :=
      ⟨mid.take bs.length, mid.drop bs.length, (List.take_append_drop _ _).symm, by simp; omega⟩
    have hYl : bs.length + Y.length = mid.length := by rw [hXY]; simp [hXl]
    obtain ⟨s1, hr1, q1⟩ := hp s v (pre.map some) (X.map some) (Y.map some ++ post.map some ++ some t :: rest) pre.length hw hv hj
      (by rw [hrest, he, hXY]; simp) (by simp) (by simp [hXl])
    have hh1 : Holds { v with buf := pre.map some ++ bs.map some ++ (Y.map some ++ post.map some ++ some t :: rest) }
        ((pre ++ bs) ++ Y ++ post) t := ⟨by simp only [hsz]; simp; omega, rest, by simp⟩
    obtain ⟨s2, v2, hr2, q2, hh2, hb2, hc2⟩ := erase_ok q1.wf q1.at hh1 rfl
    refine ⟨s2, v2, ?_, (q1.then q2).step, hh2, fun _ => ⟨hb2, hc2⟩, fun h => absurd h (by omega)⟩
    unfold replaceNoAliasing
    mstep h1
    mstep h2
    mstep h3
    rw [if_neg hlt]
    mstep hr1
    simp only [Ptr.add]
    simp only [List.length_append] at hr2
    rw [show pre.length + bs.length + Y.length = pre.length + mid.length by omega] at hr2
    mstep hr2
    rfl

end noalias

end Ptl.Str
