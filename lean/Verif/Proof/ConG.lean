import Verif.Proof.ConF
/-
`construct`: the closed mesh, the last loops and the manifold test.
-/
set_option linter.unusedSimpArgs false
namespace TinyMesh
open Orbit
variable {F : Type} {m m' m0 : Mesh F}

/-- the state after the third loop -/
structure Closed (m0 : Mesh F) (g : Nat → Nat) (m : Mesh F) : Prop extends CI m0 g m where
  T : TriMesh m0
  S : BSucc m0 g
  all : ∀ h, m0.HA h → m.hRev h ≠ 0

namespace Closed
variable {g : Nat → Nat} (C : Closed m0 g m)
include C

theorem bnd_rev {h : Nat} (b : m0.Bnd h) : m0.hFresh ≤ m.hRev h ∧ m.hRev h < m.hFresh ∧ m.hRev (m.hRev h) = h ∧
    m.hBd h = true := by
  rcases C.rB h b with h1 | h1
  · exact absurd h1.1 (C.all h b.1)
  · exact h1

theorem lt0 {h : Nat} (a : m0.HA h) : h < m0.hFresh := (C.T.hB h a).2

theorem alT {h : Nat} (a : m0.HA h) : m.HA h := (C.hal h).2 (Or.inl a)
theorem alH {h : Nat} (h1 : m0.hFresh ≤ h) (h2 : h < m.hFresh) : m.HA h := (C.hal h).2 (Or.inr ⟨h1, h2⟩)

theorem cases {h : Nat} (a : m.HA h) : (m0.HA h ∧ m0.hRev h ≠ 0) ∨ m0.Bnd h ∨ (m0.hFresh ≤ h ∧ h < m.hFresh) := by
  rcases (C.hal h).1 a with h1 | h1
  · by_cases c : m0.hRev h = 0
    · exact Or.inr (Or.inl ⟨h1, c⟩)
    · exact Or.inl ⟨h1, c⟩
  · exact Or.inr (Or.inr h1)

theorem ne0 {h : Nat} (a : m.HA h) : h ≠ 0 := by
  have := C.T.h0
  rcases (C.hal h).1 a with h1 | h1
  · exact C.T.ne0 h1
  · omega

theorem lt {h : Nat} (a : m.HA h) : h < m.hFresh := by
  have := C.hFresh
  rcases (C.hal h).1 a with h1 | h1
  · have := C.lt0 h1; omega
  · omega

theorem next_alive {h : Nat} (a : m.HA h) : m.HA (m.hNext h) := by
  rcases (C.hal h).1 a with h1 | h1
  · rw [C.nT h h1]; exact C.alT (C.T.next_alive h h1)
  · obtain ⟨q1, q2, _⟩ := C.holeNext h h1.1 h1.2
    exact C.alH q1 q2

theorem rev_alive {h : Nat} (a : m.HA h) : m.HA (m.hRev h) := by
  rcases C.cases a with ⟨h1, h2⟩ | h1 | ⟨h1, h2⟩
  · rw [(C.rT h h1 h2).1]; exact C.alT (C.T.rev_alive h h1 h2)
  · obtain ⟨q1, q2, _⟩ := C.bnd_rev h1; exact C.alH q1 q2
  · exact C.alT (C.holeRev h h1 h2).1.1

theorem rev_rev {h : Nat} (a : m.HA h) : m.hRev (m.hRev h) = h := by
  rcases C.cases a with ⟨h1, h2⟩ | h1 | ⟨h1, h2⟩
  · have e := (C.rT h h1 h2).1
    have r := C.T.rev_rev h h1 h2
    rw [e, (C.rT _ (C.T.rev_alive h h1 h2) (by rw [r]; exact C.T.ne0 h1)).1, r]
  · exact (C.bnd_rev h1).2.2.1
  · exact (C.holeRev h h1 h2).2.1

theorem rev_ne {h : Nat} (a : m.HA h) : m.hRev h ≠ h := by
  rcases C.cases a with ⟨h1, h2⟩ | h1 | ⟨h1, h2⟩
  · rw [(C.rT h h1 h2).1]; exact C.T.rev_ne h h1
  · have := (C.bnd_rev h1).1; have := C.lt0 h1.1; omega
  · have := C.lt0 (C.holeRev h h1 h2).1.1; omega

theorem src_T {h : Nat} (a : m0.HA h) : m.hSrc h = m0.hSrc h := C.sT h a
theorem dst_T {h : Nat} (a : m0.HA h) : m.hSrc (m.hNext h) = m0.hSrc (m0.hNext h) := by
  rw [C.nT h a, C.sT _ (C.T.next_alive h a)]

/-- the end of a hole half-edge is the start of its counterpart -/
theorem dst_H {h : Nat} (h1 : m0.hFresh ≤ h) (h2 : h < m.hFresh) : m.hSrc (m.hNext h) = m0.hSrc (m.hRev h) := by
  obtain ⟨q1, q2, q3, _⟩ := C.holeNext h h1 h2
  obtain ⟨r1, r2, r3, r4⟩ := C.holeRev _ q1 q2
  rw [r4, q3, C.S.src C.T r1]

theorem src_rev {h : Nat} (a : m.HA h) : m.hSrc (m.hRev h) = m.hSrc (m.hNext h) := by
  rcases C.cases a with ⟨h1, h2⟩ | h1 | ⟨h1, h2⟩
  · rw [(C.rT h h1 h2).1, C.sT _ (C.T.rev_alive h h1 h2), C.dst_T h1, C.T.src_rev h h1 h2]
  · obtain ⟨q1, q2, q3, _⟩ := C.bnd_rev h1
    rw [(C.holeRev _ q1 q2).2.2.2, q3, C.dst_T h1.1]
  · rw [C.dst_H h1 h2, C.sT _ (C.holeRev h h1 h2).1.1]

theorem next_inj {h h' : Nat} (a : m.HA h) (a' : m.HA h') (e : m.hNext h = m.hNext h') : h = h' := by
  rcases (C.hal h).1 a with h1 | h1
  · rcases (C.hal h').1 a' with h2 | h2
    · rw [C.nT h h1, C.nT h' h2] at e; exact C.T.next_inj h1 h2 e
    · rw [C.nT h h1] at e
      have := (C.holeNext h' h2.1 h2.2).1
      have := C.lt0 (C.T.next_alive h h1)
      omega
  · rcases (C.hal h').1 a' with h2 | h2
    · rw [C.nT h' h2] at e
      have := (C.holeNext h h1.1 h1.2).1
      have := C.lt0 (C.T.next_alive h' h2)
      omega
    · have e1 := (C.holeNext h h1.1 h1.2).2.2.1
      have e2 := (C.holeNext h' h2.1 h2.2).2.2.1
      rw [e, ← e2] at e1
      rw [← (C.holeRev h h1.1 h1.2).2.1, e1, (C.holeRev h' h2.1 h2.2).2.1]

theorem permSig : Perm m.sig m.HA m.hFresh where
  maps := fun _ a => C.next_alive (C.rev_alive a)
  inj := by
    intro x y ax ay e
    have := C.next_inj (C.rev_alive ax) (C.rev_alive ay) e
    rw [← C.rev_rev ax, this, C.rev_rev ay]
  bound := fun _ a => C.lt a

theorem sig_src {h : Nat} (a : m.HA h) : m.hSrc (m.sig h) = m.hSrc h := by
  have := C.src_rev (C.rev_alive a)
  rw [C.rev_rev a] at this
  exact this.symm

theorem sig_iter_src {h : Nat} (a : m.HA h) (n : Nat) : m.hSrc (m.sig^[n] h) = m.hSrc h := by
  induction n with
  | zero => rfl
  | succ n ih => rw [Function.iterate_succ_apply', C.sig_src (C.permSig.iter a n), ih]

/-- a ring contains at most one half-edge of a hole -/
theorem one_hole {b : Nat} (h1 : m0.hFresh ≤ b) (h2 : b < m.hFresh) (k : Nat) :
    m0.HA (m.sig^[k] b) ∨ m.sig^[k] b = b := by
  obtain ⟨bb, r2, _, _⟩ := C.holeRev b h1 h2
  obtain ⟨n, _, n2, n3, n4⟩ := C.S.turn _ bb
  have chain : ∀ i, i ≤ n → m.sig^[i + 1] b = m0.sig^[i] (m0.hNext (m.hRev b)) := by
    intro i
    induction i with
    | zero =>
      intro _
      show m.hNext (m.hRev b) = m0.hNext (m.hRev b)
      exact C.nT _ bb.1
    | succ i ih =>
      intro hi
      rw [Function.iterate_succ_apply', ih (by omega), Function.iterate_succ_apply' m0.sig]
      have a := n3 i (by omega)
      have r := n2 i (by omega)
      unfold Mesh.sig
      unfold Mesh.sig at a r
      rw [(C.rT _ a r).1, C.nT _ (C.T.rev_alive _ a r)]
  have bg := C.S.bnd _ bb
  obtain ⟨q1, q2, q3, _⟩ := C.bnd_rev bg
  have e1 := (C.holeNext _ q1 q2).2.2.1
  rw [q3] at e1
  obtain ⟨w1, w2, _, _⟩ := C.holeNext _ q1 q2
  have e2 := (C.S.perm C.T).inj _ _ bb (C.holeRev _ w1 w2).1 e1
  have ret : m.sig^[n + 2] b = b := by
    rw [show n + 2 = (n + 1) + 1 by omega, Function.iterate_succ_apply', chain n (Nat.le_refl _), ← n4]
    show m.hNext (m.hRev (g (m.hRev b))) = b
    rw [← (C.holeRev _ w1 w2).2.1, ← e2, r2]
  have hmul : ∀ t, m.sig^[(n + 2) * t] b = b := by
    intro t
    induction t with
    | zero => simp
    | succ t ih => rw [Nat.mul_add, Nat.mul_one, Function.iterate_add_apply, ret, ih]
  have hmod : m.sig^[k] b = m.sig^[k % (n + 2)] b := by
    conv_lhs => rw [← Nat.mod_add_div k (n + 2)]
    rw [Function.iterate_add_apply, hmul]
  rw [hmod]
  have hlt := Nat.mod_lt k (show 0 < n + 2 by omega)
  cases hk : k % (n + 2) with
  | zero => right; rfl
  | succ i =>
    left
    rw [chain i (by omega)]
    exact n3 i (by omega)

/-- flagged half-edges: those of holes and their counterparts -/
theorem bd_iff {h : Nat} (a : m.HA h) : m.hBd h = true ↔ m0.Bnd h ∨ m0.hFresh ≤ h := by
  rcases C.cases a with ⟨h1, h2⟩ | h1 | ⟨h1, h2⟩
  · rw [(C.rT h h1 h2).2]
    constructor
    · intro h; simp at h
    · rintro (h | h)
      · exact absurd h.2 h2
      · have := C.lt0 h1; omega
  · exact ⟨fun _ => Or.inl h1, fun _ => (C.bnd_rev h1).2.2.2⟩
  · exact ⟨fun _ => Or.inr h1, fun _ => (C.holeRev h h1 h2).2.2.1⟩

theorem sig_bnd {h : Nat} (b : m0.Bnd h) : m0.hFresh ≤ m.sig h ∧ m.sig h < m.hFresh := by
  obtain ⟨q1, q2, _⟩ := C.bnd_rev b
  obtain ⟨w1, w2, _⟩ := C.holeNext _ q1 q2
  exact ⟨w1, w2⟩

/-- number of hole half-edges in a ring: one if a half-edge of the ring is flagged, otherwise none -/
theorem ring_holes {s : Nat} (a : m.HA s) :
    (orbit m.sig s).countP (fun h => decide (m0.hFresh ≤ h)) = if (orbit m.sig s).any m.hBd then 1 else 0 := by
  have pm := C.permSig
  have nd := pm.nodup_orbit a
  by_cases hb : (orbit m.sig s).any m.hBd = true
  · rw [if_pos hb]
    obtain ⟨x, hx, hxb⟩ := List.any_eq_true.1 hb
    have ax := pm.orbit_S a hx
    obtain ⟨n, rfl⟩ := (pm.mem_orbit a).1 hx
    -- some hole half-edge in the ring
    have hb' : ∃ b, b ∈ orbit m.sig s ∧ m0.hFresh ≤ b ∧ b < m.hFresh := by
      rcases (C.bd_iff ax).1 hxb with h | h
      · obtain ⟨w1, w2⟩ := C.sig_bnd h
        refine ⟨_, (pm.mem_orbit a).2 ⟨n + 1, Function.iterate_succ_apply' _ _ _⟩, w1, w2⟩
      · exact ⟨_, hx, h, C.lt ax⟩
    obtain ⟨b, hbm, h1, h2⟩ := hb'
    have uniq : ∀ y ∈ orbit m.sig s, m0.hFresh ≤ y → y = b := by
      intro y hy hy'
      obtain ⟨i, rfl⟩ := (pm.mem_orbit a).1 hy
      obtain ⟨j, hj⟩ := (pm.mem_orbit a).1 hbm
      obtain ⟨k, hk⟩ := pm.back a j
      have : m.sig^[i + k] b = m.sig^[i] s := by
        rw [Function.iterate_add_apply, ← hj, hk]
      rcases C.one_hole h1 h2 (i + k) with h | h
      · rw [this] at h; have := C.lt0 h; omega
      · rw [← this, h]
    have hf : (orbit m.sig s).filter (fun h => decide (m0.hFresh ≤ h)) = [b] := by
      have hn := nd.filter (fun h => decide (m0.hFresh ≤ h))
      refine List.perm_singleton.1 ?_
      rw [List.perm_ext_iff_of_nodup hn (by simp)]
      intro y
      rw [List.mem_filter, List.mem_singleton]
      simp only [decide_eq_true_eq]
      exact ⟨fun h => uniq y h.1 h.2, fun h => by subst h; exact ⟨hbm, h1⟩⟩
    rw [List.countP_eq_length_filter, hf]; rfl
  · rw [if_neg hb, List.countP_eq_zero]
    intro y hy hy'
    apply hb
    rw [List.any_eq_true]
    exact ⟨y, hy, (C.bd_iff (pm.orbit_S a hy)).2 (Or.inr (by simpa using hy'))⟩

/-- the test of the last loop: the ring of `s` contains all triangle corners at its vertex -/
theorem ring_test {s : Nat} (a : m.HA s) :
    (if (orbit m.sig s).any m.hBd then (-1 : Int) else 0) + ((orbit m.sig s).length : Int) =
        (m0.outDeg (m.hSrc s) : Int) ↔
      ∀ h, m0.HA h → m0.hSrc h = m.hSrc s → h ∈ orbit m.sig s := by
  have pm := C.permSig
  have nd := pm.nodup_orbit a
  have hh := C.ring_holes a
  have hlen : (orbit m.sig s).length = (orbit m.sig s).countP (fun h => decide (m0.hFresh ≤ h)) +
      ((orbit m.sig s).filter (fun h => !decide (m0.hFresh ≤ h))).length := by
    rw [List.length_eq_countP_add_countP (fun h => decide (m0.hFresh ≤ h)), ← List.countP_eq_length_filter]
    congr 2
    funext x
    rw [Bool.eq_iff_iff]
    simp
  have hL : m0.outDeg (m.hSrc s) = (m0.hes.filter (fun h => m0.hSrc h == m.hSrc s)).length := by
    unfold Mesh.outDeg; rw [List.countP_eq_length_filter]
  have nd1 := nd.filter (fun h => !decide (m0.hFresh ≤ h))
  have nd2 := C.T.hd.nodup.filter (fun h => m0.hSrc h == m.hSrc s)
  have mem1 : ∀ y, y ∈ (orbit m.sig s).filter (fun h => !decide (m0.hFresh ≤ h)) ↔ y ∈ orbit m.sig s ∧ m0.HA y := by
    intro y
    rw [List.mem_filter]
    constructor
    · rintro ⟨h1, h2⟩
      refine ⟨h1, ?_⟩
      have h2' : ¬ m0.hFresh ≤ y := by simpa using h2
      exact ((C.hal y).1 (pm.orbit_S a h1)).resolve_right (fun h => h2' h.1)
    · rintro ⟨h1, h2⟩
      have := C.lt0 h2
      exact ⟨h1, by simp; omega⟩
  have mem2 : ∀ y, y ∈ m0.hes.filter (fun h => m0.hSrc h == m.hSrc s) ↔ m0.HA y ∧ m0.hSrc y = m.hSrc s := by
    intro y
    rw [List.mem_filter, C.T.hd.mem]
    simp [Mesh.HA]
  have sub : (orbit m.sig s).filter (fun h => !decide (m0.hFresh ≤ h)) ⊆ m0.hes.filter (fun h => m0.hSrc h == m.hSrc s) := by
    intro y hy
    rw [mem1] at hy
    rw [mem2]
    refine ⟨hy.2, ?_⟩
    obtain ⟨i, rfl⟩ := (pm.mem_orbit a).1 hy.1
    rw [← C.sT _ hy.2, C.sig_iter_src a]
  have sp := List.subperm_of_subset nd1 sub
  have conv : (if (orbit m.sig s).any m.hBd then (-1 : Int) else 0) + ((orbit m.sig s).length : Int) =
      (((orbit m.sig s).filter (fun h => !decide (m0.hFresh ≤ h))).length : Int) := by
    rw [hlen, hh]
    split <;> push_cast <;> omega
  rw [conv, hL]
  constructor
  · intro e h ah hs
    have e' := (sp.perm_of_length_le (by omega)).mem_iff (a := h)
    exact ((mem1 h).1 (e'.2 ((mem2 h).2 ⟨ah, hs⟩))).1
  · intro hall
    have sub' : m0.hes.filter (fun h => m0.hSrc h == m.hSrc s) ⊆ (orbit m.sig s).filter (fun h => !decide (m0.hFresh ≤ h)) := by
      intro y hy
      rw [mem2] at hy
      rw [mem1]
      exact ⟨hall y hy.1 hy.2, hy.1⟩
    have := (List.subperm_of_subset nd2 sub').length_le
    have := sp.length_le
    omega

end Closed
end TinyMesh
