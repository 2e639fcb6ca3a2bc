import Verif.Proof.SettleC
import Verif.Proof.LinesE
/-
The normals in exact arithmetic.
-/
namespace TinyMesh
open Orbit
variable {m : Mesh XR} {p : Nat → E3}

theorem Vec3.Is.div_zero {a : Vec3 XR} {x : E3} (ha : a.Is x) : a.div? (XR.fin 0) = none := by
  obtain ⟨u, rfl, rfl⟩ := ha
  rw [Vec3.X_vdiv, Vec3.div?_def, if_pos rfl]; rfl

theorem X_lit_fin (a : Int) (b : Nat) : (Scalar.lit a b : XR) = XR.fin (a / b : ℝ) := by rw [X_lit, R_lit]

theorem normalLoop_exact (w : m.WF) (A : m.AtE p) {n : Nat → Vec3 XR} {N : Nat → E3} (hn : ∀ u, (n u).Is (N u)) :
    ∀ (hs : List Nat) (a : Vec3 XR) (x : E3) (s : ℝ), (∀ h ∈ hs, m.hAlive h = true) → a.Is x →
    ∃ b, normalLoop n hs a (.fin s) m = .ok (b, .fin (s + (hs.map (m.cotOf p)).sum)) m ∧
      b.Is (x + (hs.map fun h => m.cotOf p h • N (m.hSrc (m.hNext h))).sum)
  | [], a, x, s, _, ha => ⟨a, by simp [normalLoop], by simpa using ha⟩
  | h :: hs, a, x, s, hh, ha => by
    have ah := hh h (by simp)
    obtain ⟨b, e, hb⟩ := normalLoop_exact w A hn hs _ _ (s + m.cotOf p h) (fun k hk => hh k (by simp [hk]))
      (ha.add ((hn (m.hSrc (m.hNext h))).smul (m.cotOf p h)))
    refine ⟨b, ?_, ?_⟩
    · rw [normalLoop, bind_apply, getDst_ok ah (w.next_alive _ ah)]; dsimp only
      rw [bind_apply, cotWeight_exact w A ah]; dsimp only
      rw [X_add, e, List.map_cons, List.sum_cons, add_assoc]
    · rw [List.map_cons, List.sum_cons, ← add_assoc]
      exact hb

/-- C80: one normal -/
theorem smoothNormal_exact (w : m.WF) (A : m.AtE p) {n : Nat → Vec3 XR} {N : Nat → E3} (hn : ∀ u, (n u).Is (N u)) {v : Nat} (a : m.vAlive v = true) :
    (m.weightOut (m.cotOf p) v ≠ 0 → m.blend p N v ≠ 0 →
      ∃ n', smoothNormal v n m = .ok n' m ∧ ∀ u, (n' u).Is (Function.update N v (unitOf (m.blend p N v)) u)) ∧
    (m.weightOut (m.cotOf p) v = 0 ∨ m.blend p N v = 0 → smoothNormal v n m = .err .throw) := by
  obtain ⟨b, e, hb⟩ := normalLoop_exact w A hn (orbit m.sig (m.vHe v)) Vec3.zero 0 0 (fun h hh => ((w.mem_ring a).1 hh).1) Vec3.Is.zero
  rw [zero_add, ← w.weightOut_ring a] at e
  rw [zero_add, ← w.outs_sum a] at hb
  have hb' := hb.smul (1 / 2)
  have hv := (hn v).smul (1 / 2)
  have half : (Scalar.lit 1 2 : XR) = XR.fin (1 / 2) := by rw [X_lit_fin]; norm_num
  have run : smoothNormal v n m = (do
      let b ← orThrowM ((b.smul (XR.fin (1 / 2))).div? (XR.fin (m.weightOut (m.cotOf p) v)))
      let x ← orThrowM (((n v).smul (XR.fin (1 / 2))).add b).normalize?
      pure (upd n v x) : M XR (Nat → Vec3 XR)) m := by
    unfold smoothNormal
    rw [bind_apply, w.ringList_ok a]; dsimp only
    rw [bind_apply, lit_zero, e]; dsimp only
    rw [half]
  rw [run, bind_apply]
  by_cases z : m.weightOut (m.cotOf p) v = 0
  · refine ⟨fun h => absurd z h, fun _ => ?_⟩
    rw [z, hb'.div_zero]
    rfl
  · obtain ⟨c, ec, hc⟩ := hb'.div z
    have hs := hv.add hc
    have eq : (1 / 2 : ℝ) • N v + (m.weightOut (m.cotOf p) v)⁻¹ • (1 / 2 : ℝ) • ((m.outs v).map fun h => m.cotOf p h • N (m.hSrc (m.hNext h))).sum =
        m.blend p N v := by
      unfold Mesh.blend
      rw [smul_comm (1 / 2 : ℝ) (m.weightOut (m.cotOf p) v)⁻¹]
    rw [eq] at hs
    rw [ec]
    constructor
    · intro _ h0
      obtain ⟨x, ex, hx⟩ := hs.normalize h0
      refine ⟨upd n v x, ?_, ?_⟩
      · show (orThrowM _ >>= _ : M XR _) m = _
        rw [bind_apply, ex]
        rfl
      · intro u
        by_cases c : u = v
        · subst c; rw [upd_same, Function.update_self]; exact hx
        · rw [upd_ne _ _ c, Function.update_of_ne c]; exact hn u
    · rintro (h | h)
      · exact absurd h z
      · rw [h] at hs
        show (orThrowM _ >>= _ : M XR _) m = _
        rw [bind_apply, hs.normalize_zero]
        rfl

theorem smoothRound_exact (w : m.WF) (A : m.AtE p) : ∀ (vs : List Nat) {n : Nat → Vec3 XR} {N : Nat → E3}, (∀ u, (n u).Is (N u)) → (∀ v ∈ vs, m.vAlive v = true) →
    (¬ m.BlendFails p vs N → ∃ n', foldAll smoothNormal vs n m = .ok n' m ∧ ∀ u, (n' u).Is (m.blendAll p vs N u)) ∧
    (m.BlendFails p vs N → foldAll smoothNormal vs n m = .err .throw)
  | [], n, N, hn, _ => ⟨fun _ => ⟨n, rfl, hn⟩, fun h => h.elim⟩
  | v :: vs, n, N, hn, a => by
    obtain ⟨h1, h2⟩ := smoothNormal_exact w A hn (a v (by simp))
    unfold Mesh.BlendFails
    by_cases c : m.weightOut (m.cotOf p) v = 0 ∨ m.blend p N v = 0
    · constructor
      · intro h; exact absurd (c.elim .inl fun h => .inr (.inl h)) h
      · intro _
        unfold foldAll
        rw [bind_apply, h2 c]
    · rw [not_or] at c
      obtain ⟨n', e, hn'⟩ := h1 c.1 c.2
      obtain ⟨k1, k2⟩ := smoothRound_exact w A vs hn' fun u hu => a u (by simp [hu])
      unfold foldAll
      rw [bind_apply, e]
      constructor
      · intro h
        exact k1 fun x => h (.inr (.inr x))
      · rintro (x | x | x)
        · exact absurd x c.1
        · exact absurd x c.2
        · exact k2 x

/-- the normals after `k` rounds -/
theorem smoothNormals_exact (w : m.WF) (A : m.AtE p) {vs : List Nat} (a : ∀ v ∈ vs, m.vAlive v = true) : ∀ (k : Nat) {n : Nat → Vec3 XR} {N : Nat → E3},
    (∀ u, (n u).Is (N u)) →
    ((∀ i < k, ¬ m.BlendFails p vs ((m.blendAll p vs)^[i] N)) → ∃ n', smoothNormals vs k n m = .ok n' m ∧ ∀ u, (n' u).Is ((m.blendAll p vs)^[k] N u)) ∧
    ((∃ i < k, m.BlendFails p vs ((m.blendAll p vs)^[i] N)) → smoothNormals vs k n m = .err .throw)
  | 0, n, N, hn => ⟨fun _ => ⟨n, rfl, hn⟩, by simp⟩
  | k + 1, n, N, hn => by
    obtain ⟨h1, h2⟩ := smoothRound_exact w A vs hn a
    by_cases c : m.BlendFails p vs N
    · refine ⟨fun h => absurd c (h 0 (by simp)), fun _ => ?_⟩
      rw [smoothNormals, bind_apply, h2 c]
    · obtain ⟨n', e, hn'⟩ := h1 c
      obtain ⟨k1, k2⟩ := smoothNormals_exact w A a k hn'
      rw [smoothNormals, bind_apply, e]
      constructor
      · intro h
        exact k1 fun i hi => h (i + 1) (by omega)
      · rintro ⟨i, hi, x⟩
        cases i with
        | zero => exact absurd x c
        | succ i => exact k2 ⟨i, by omega, x⟩

/-! ### The first normals -/

theorem vertNormal_out (w : m.WF) (A : m.AtE p) {v : Nat} (a : m.vAlive v = true) :
    (¬ m.NoNormal p v → ∃ n, vertNormal v m = .ok n m ∧ n.Is (unitOf (m.maxSum p v))) ∧ (m.NoNormal p v → vertNormal v m = .err .throw) := by
  unfold Mesh.NoNormal
  by_cases c : ∃ h, m.hAlive h = true ∧ m.hSrc h = v ∧ (p (m.hSrc (m.hNext h)) = p v ∨ p (m.hSrc (m.hNext (m.hNext h))) = p v)
  · refine ⟨fun h => absurd (.inl c) h, fun _ => ?_⟩
    obtain ⟨h, ah, sh, z⟩ := c
    exact vertNormal_throws w A a ah sh z
  · obtain ⟨h1, h2⟩ := vertNormal_exact w A a (p := p) fun h ah sh => by
      constructor <;> intro e <;> exact c ⟨h, ah, sh, by simp [e]⟩
    constructor
    · intro h
      exact h1 fun z => h (.inr z)
    · rintro (h | h)
      · exact absurd h c
      · exact h2 h

theorem firstLoop_exact (w : m.WF) (A : m.AtE p) : ∀ (vs : List Nat) {n : Nat → Vec3 XR} {N : Nat → E3}, (∀ u, (n u).Is (N u)) → (∀ v ∈ vs, m.vAlive v = true) →
    ((∀ v ∈ vs, ¬ m.NoNormal p v) → ∃ n', foldAll (fun v n => do
      let x ← vertNormal v
      pure (upd n v x)) vs n m = .ok n' m ∧ ∀ u, (n' u).Is (if u ∈ vs then unitOf (m.maxSum p u) else N u)) ∧
    ((∃ v ∈ vs, m.NoNormal p v) → foldAll (fun v n => do
      let x ← vertNormal v
      pure (upd n v x)) vs n m = .err .throw)
  | [], n, N, hn, _ => ⟨fun _ => ⟨n, rfl, by simpa using hn⟩, by simp⟩
  | v :: vs, n, N, hn, a => by
    obtain ⟨h1, h2⟩ := vertNormal_out w A (a v (by simp))
    unfold foldAll
    rw [bind_apply, bind_apply]
    by_cases c : m.NoNormal p v
    · rw [h2 c]
      exact ⟨fun h => absurd c (h v (by simp)), fun _ => rfl⟩
    · obtain ⟨x, e, hx⟩ := h1 c
      rw [e]
      obtain ⟨k1, k2⟩ := firstLoop_exact w A vs (n := upd n v x) (N := Function.update N v (unitOf (m.maxSum p v))) (by
        intro u
        by_cases c : u = v
        · subst c; rw [upd_same, Function.update_self]; exact hx
        · rw [upd_ne _ _ c, Function.update_of_ne c]; exact hn u) fun u hu => a u (by simp [hu])
      constructor
      · intro h
        obtain ⟨n', e', hn'⟩ := k1 fun u hu => h u (by simp [hu])
        refine ⟨n', e', fun u => ?_⟩
        have := hn' u
        by_cases i : u ∈ vs
        · rw [if_pos i] at this; rw [if_pos (by simp [i])]; exact this
        · rw [if_neg i] at this
          by_cases j : u = v
          · subst j; rw [Function.update_self] at this; rw [if_pos (by simp)]; exact this
          · rw [Function.update_of_ne j] at this; rw [if_neg (by simp [i, j])]; exact this
      · rintro ⟨u, hu, z⟩
        rcases List.mem_cons.1 hu with rfl | hu
        · exact absurd z c
        · exact k2 ⟨u, hu, z⟩

theorem firstNormals_exact (w : m.WF) (A : m.AtE p) {vs : List Nat} (a : ∀ v ∈ vs, m.vAlive v = true) :
    ((∀ v ∈ vs, ¬ m.NoNormal p v) → ∃ n, firstNormals vs m = .ok n m ∧ ∀ u, (n u).Is (m.startNormals p vs u)) ∧
    ((∃ v ∈ vs, m.NoNormal p v) → firstNormals vs m = .err .throw) := by
  unfold firstNormals Mesh.startNormals
  exact firstLoop_exact w A vs (N := fun _ => 0) (fun _ => Vec3.Is.zero) a

/-! ### Vertices outside of the list -/

theorem blendAll_out {F : Type} {m : Mesh F} {p : Nat → E3} : ∀ (vs : List Nat) (N : Nat → E3) {u : Nat}, u ∉ vs → m.blendAll p vs N u = N u
  | [], _, _, _ => rfl
  | v :: vs, N, u, h => by
    unfold Mesh.blendAll
    rw [blendAll_out vs _ fun k => h (by simp [k]), Function.update_of_ne fun k => h (by simp [k])]

theorem blendAll_iter_out {F : Type} {m : Mesh F} {p : Nat → E3} {vs : List Nat} {u : Nat} (h : u ∉ vs) : ∀ (k : Nat) (N : Nat → E3), (m.blendAll p vs)^[k] N u = N u
  | 0, _ => rfl
  | k + 1, N => by rw [Function.iterate_succ_apply, blendAll_iter_out h k, blendAll_out vs N h]

end TinyMesh
