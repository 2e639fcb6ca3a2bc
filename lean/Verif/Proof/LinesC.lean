import Verif.Proof.LinesB
import Verif.Proof.Fair
/-
Ridge and valley lines: the linear system.
-/
namespace TinyMesh
open Orbit

/-! ### Renumbering -/

theorem intern_free (l : List Nat) (k : Nat) : l <+: (intern l k).1 ∧ k ∈ (intern l k).1 ∧ (intern l k).2 = (intern l k).1.idxOf k ∧
    (∀ x ∈ (intern l k).1, x ∈ l ∨ x = k) ∧ (l.Nodup → (intern l k).1.Nodup) := by
  unfold intern
  by_cases h : k ∈ l
  · rw [if_pos h]
    exact ⟨List.prefix_rfl, h, rfl, fun x hx => .inl hx, id⟩
  · rw [if_neg h]
    refine ⟨List.prefix_append _ _, by simp, ?_, by simp, fun nd => ?_⟩
    · rw [List.idxOf_append_of_notMem h]; simp
    · rw [List.nodup_append]
      exact ⟨nd, by simp, by intro a ha b hb; simp at hb; subst hb; rintro rfl; exact h ha⟩

theorem idxOf_prefix {l l' : List Nat} (h : l <+: l') {x : Nat} (hx : x ∈ l) : l'.idxOf x = l.idxOf x := by
  obtain ⟨t, rfl⟩ := h
  exact List.idxOf_append_of_mem hx

/-- entries with the keys of their rows and columns -/
abbrev Keyed := Nat × Nat × ℝ

/-- the entries with the numbers of their keys -/
def numbered (l l' : List Nat) (k : Keyed) : Int × Int × ℝ := ((l.idxOf k.1 : Nat), (l'.idxOf k.2.1 : Nat), k.2.2)

/-- an entry -/
abbrev trip (i j : Nat) (x : XR) : Triplet XR := ((i : Int), (j : Int), x)

/-- the system holds the entries `K` and `KF` -/
structure SysHolds (nv : Nat) (fr : Nat → Bool) (t : LineSys XR) (K KF : List Keyed) : Prop where
  nd : t.free.Nodup
  ndF : t.fixed.Nodup
  mem : ∀ k ∈ t.free, k < nv ∧ fr k = true
  memF : ∀ k ∈ t.fixed, k < nv ∧ fr k = false
  keys : ∀ k ∈ K, k.1 ∈ t.free ∧ k.2.1 ∈ t.free
  keysF : ∀ k ∈ KF, k.1 ∈ t.free ∧ k.2.1 ∈ t.fixed
  entries : t.tFree = (K.map (numbered t.free t.free)).map finT
  entriesF : t.tFixed = (KF.map (numbered t.free t.fixed)).map finT

namespace SysHolds
variable {nv : Nat} {fr : Nat → Bool} {t : LineSys XR} {K KF : List Keyed}

theorem touch (h : SysHolds nv fr t K KF) {k : Nat} (hk : k < nv) (f : fr k = true) :
    SysHolds nv fr { t with free := (intern t.free k).1 } K KF := by
  obtain ⟨h1, h2, h3, h4, h5⟩ := intern_free t.free k
  refine ⟨h5 h.nd, h.ndF, ?_, h.memF, fun x hx => ⟨h1.subset (h.keys x hx).1, h1.subset (h.keys x hx).2⟩,
    fun x hx => ⟨h1.subset (h.keysF x hx).1, (h.keysF x hx).2⟩, ?_, ?_⟩
  · intro x hx
    rcases h4 x hx with hx | rfl
    · exact h.mem x hx
    · exact ⟨hk, f⟩
  · rw [h.entries]
    congr 1
    refine List.map_congr_left fun x hx => ?_
    unfold numbered
    rw [idxOf_prefix h1 (h.keys x hx).1, idxOf_prefix h1 (h.keys x hx).2]
  · rw [h.entriesF]
    congr 1
    refine List.map_congr_left fun x hx => ?_
    unfold numbered
    rw [idxOf_prefix h1 (h.keysF x hx).1]

theorem touchF (h : SysHolds nv fr t K KF) {k : Nat} (hk : k < nv) (f : fr k = false) :
    SysHolds nv fr { t with fixed := (intern t.fixed k).1 } K KF := by
  obtain ⟨h1, h2, h3, h4, h5⟩ := intern_free t.fixed k
  refine ⟨h.nd, h5 h.ndF, h.mem, ?_, h.keys, fun x hx => ⟨(h.keysF x hx).1, h1.subset (h.keysF x hx).2⟩, h.entries, ?_⟩
  · intro x hx
    rcases h4 x hx with hx | rfl
    · exact h.memF x hx
    · exact ⟨hk, f⟩
  · rw [h.entriesF]
    congr 1
    refine List.map_congr_left fun x hx => ?_
    unfold numbered
    rw [idxOf_prefix h1 (h.keysF x hx).2]

theorem add (h : SysHolds nv fr t K KF) {i j : Nat} (hi : i ∈ t.free) (hj : j ∈ t.free) (r : ℝ) :
    SysHolds nv fr { t with tFree := t.tFree ++ [trip (t.free.idxOf i) (t.free.idxOf j) (.fin r)] } (K ++ [(i, j, r)]) KF := by
  refine ⟨h.nd, h.ndF, h.mem, h.memF, ?_, h.keysF, ?_, h.entriesF⟩
  · intro x hx
    rcases List.mem_append.1 hx with hx | hx
    · exact h.keys x hx
    · simp at hx; subst hx; exact ⟨hi, hj⟩
  · rw [h.entries]; simp [numbered, finT]

theorem addF (h : SysHolds nv fr t K KF) {i j : Nat} (hi : i ∈ t.free) (hj : j ∈ t.fixed) (r : ℝ) :
    SysHolds nv fr { t with tFixed := t.tFixed ++ [trip (t.free.idxOf i) (t.fixed.idxOf j) (.fin r)] } K (KF ++ [(i, j, r)]) := by
  refine ⟨h.nd, h.ndF, h.mem, h.memF, h.keys, ?_, h.entries, ?_⟩
  · intro x hx
    rcases List.mem_append.1 hx with hx | hx
    · exact h.keysF x hx
    · simp at hx; subst hx; exact ⟨hi, hj⟩
  · rw [h.entriesF]; simp [numbered, finT]

end SysHolds

/-! ### The loops -/
section
variable {m : Mesh XR} {p : Nat → E3}

/-- the row of the end of `h` -/
def Mesh.endIdx (m : Mesh XR) (h : Nat) : Nat := (m.vIdx (m.hSrc (m.hNext h))).toNat

/-- entries of the half-edges with the property `q` in row `i` -/
noncomputable def offDiag (m : Mesh XR) (p : Nat → E3) (q : Nat → Bool) (i : Nat) (hs : List Nat) : List Keyed :=
  (hs.filter fun h => q (m.endIdx h)).map fun h => (i, m.endIdx h, -(m.cotOf p h))

theorem offDiag_cons (q : Nat → Bool) (i h : Nat) (hs : List Nat) : offDiag m p q i (h :: hs) =
    (if q (m.endIdx h) then [(i, m.endIdx h, -(m.cotOf p h))] else []) ++ offDiag m p q i hs := by
  unfold offDiag
  rw [List.filter_cons]
  by_cases e : q (m.endIdx h) = true
  · rw [if_pos e, if_pos e]; rfl
  · rw [if_neg e, if_neg e]; rfl

theorem lineRowLoop_ok (w : m.WF) (A : m.AtE p) {fr : Nat → Bool} {cnt : Nat → XR}
    (hc : ∀ i, i < m.vs.length → cnt i = .fin (if fr i then 0 else 1)) {i : Nat} : ∀ (hs : List Nat) (s : ℝ) (t : LineSys XR) (K KF : List Keyed),
    (∀ h ∈ hs, m.hAlive h = true) → SysHolds m.vs.length fr t K KF → i ∈ t.free →
    ∃ t', lineRowLoop cnt m.vs.length (t.free.idxOf i) hs (.fin s) t m = .ok (.fin (s + (hs.map (m.cotOf p)).sum), t') m ∧
      SysHolds m.vs.length fr t' (K ++ offDiag m p fr i hs) (KF ++ offDiag m p (fun j => !fr j) i hs) ∧ t.free <+: t'.free
  | [], s, t, K, KF, _, h, _ => ⟨t, by simp [lineRowLoop], by simpa [offDiag] using h, List.prefix_rfl⟩
  | x :: hs, s, t, K, KF, ha, h, hi => by
    have a := ha x (by simp)
    have a1 := w.next_alive _ a
    have av := w.src_alive _ a1
    have lt : m.endIdx x < m.vs.length := by
      have := w.vDense.idx_lt av
      unfold Mesh.endIdx; omega
    have run : lineRowLoop cnt m.vs.length (t.free.idxOf i) (x :: hs) (.fin s) t m =
        (if Scalar.eq (cnt (m.endIdx x)) (Scalar.lit 0 1) then
          lineRowLoop cnt m.vs.length (t.free.idxOf i) hs (.fin s + .fin (m.cotOf p x)) { t with
            free := (intern t.free (m.endIdx x)).1
            tFree := t.tFree ++ [trip (t.free.idxOf i) (intern t.free (m.endIdx x)).2 (-.fin (m.cotOf p x))] } m
        else
          lineRowLoop cnt m.vs.length (t.free.idxOf i) hs (.fin s + .fin (m.cotOf p x)) { t with
            fixed := (intern t.fixed (m.endIdx x)).1
            tFixed := t.tFixed ++ [trip (t.free.idxOf i) (intern t.fixed (m.endIdx x)).2 (-.fin (m.cotOf p x))] } m) := by
      rw [lineRowLoop, bind_apply, getDst_ok a a1]; dsimp only
      rw [bind_apply, cotWeight_exact w A a]; dsimp only
      rw [bind_apply, getVIdx_ok av]; dsimp only
      rw [bind_apply, inRange_ok w (le_refl _) av]; dsimp only
      unfold Mesh.endIdx
      split <;> rfl
    rw [run, hc _ lt, lit_zero, X_eq_iff, X_add, X_neg]
    rw [offDiag_cons, offDiag_cons, List.map_cons, List.sum_cons, ← List.append_assoc, ← List.append_assoc, ← add_assoc]
    by_cases f : fr (m.endIdx x) = true
    · obtain ⟨h1, h2, h3, -, -⟩ := intern_free t.free (m.endIdx x)
      have g := (h.touch lt f).add (i := i) (j := m.endIdx x) (h1.subset hi) h2 (-(m.cotOf p x))
      dsimp only at g
      rw [if_pos (by simp [f]), if_pos f, if_neg (by simp [f]), List.append_nil, h3]
      rw [idxOf_prefix h1 hi] at g
      obtain ⟨t', e1, e2, e3⟩ := lineRowLoop_ok w A hc hs (s + m.cotOf p x) _ _ _ (fun y hy => ha y (by simp [hy])) g (h1.subset hi)
      dsimp only at e1 e3
      rw [idxOf_prefix h1 hi] at e1
      exact ⟨t', e1, e2, h1.trans e3⟩
    · obtain ⟨h1, h2, h3, -, -⟩ := intern_free t.fixed (m.endIdx x)
      have f' : fr (m.endIdx x) = false := by simpa using f
      have g := (h.touchF lt f').addF (i := i) (j := m.endIdx x) hi h2 (-(m.cotOf p x))
      dsimp only at g
      rw [if_neg (by simp [f']), if_neg f, if_pos (by simp [f']), List.append_nil, h3]
      obtain ⟨t', e1, e2, e3⟩ := lineRowLoop_ok w A hc hs (s + m.cotOf p x) _ _ _ (fun y hy => ha y (by simp [hy])) g hi
      exact ⟨t', e1, e2, e3⟩

/-- the entries of the free columns in the row of `v` -/
noncomputable def rowK (m : Mesh XR) (p : Nat → E3) (fr : Nat → Bool) (i : Nat) : List Keyed :=
  if fr i then offDiag m p fr i (orbit m.sig (m.vHe (m.vs.getD i 0))) ++ [(i, i, ((orbit m.sig (m.vHe (m.vs.getD i 0))).map (m.cotOf p)).sum)]
  else []

/-- the entries of the other columns in the row of `v` -/
noncomputable def rowKF (m : Mesh XR) (p : Nat → E3) (fr : Nat → Bool) (i : Nat) : List Keyed :=
  if fr i then offDiag m p (fun j => !fr j) i (orbit m.sig (m.vHe (m.vs.getD i 0))) else []

theorem lineRow_ok (w : m.WF) (A : m.AtE p) {fr : Nat → Bool} {cnt : Nat → XR}
    (hc : ∀ i, i < m.vs.length → cnt i = .fin (if fr i then 0 else 1)) {i : Nat} (hi : i < m.vs.length) {t : LineSys XR} {K KF : List Keyed}
    (h : SysHolds m.vs.length fr t K KF) : ∃ t', lineRow cnt m.vs.length i t m = .ok t' m ∧
      SysHolds m.vs.length fr t' (K ++ rowK m p fr i) (KF ++ rowKF m p fr i) ∧ t.free <+: t'.free ∧ (fr i = true → i ∈ t'.free) := by
  have hv : m.vs[i]? = some m.vs[i] := List.getElem?_eq_getElem hi
  have a := w.vDense.alive_at hv
  have hg : m.vs.getD i 0 = m.vs[i] := by rw [List.getD_eq_getElem?_getD, hv, Option.getD_some]
  unfold rowK rowKF lineRow
  rw [hg, bind_apply, vertexAt_ok hv]; dsimp only
  rw [hc i hi, lit_zero, X_eq_iff]
  by_cases f : fr i = true
  · obtain ⟨h1, h2, h3, -, -⟩ := intern_free t.free i
    obtain ⟨t', e1, e2, e3⟩ := lineRowLoop_ok w A hc (orbit m.sig (m.vHe m.vs[i])) 0 _ _ _ (fun x hx => ((w.mem_ring a).1 hx).1)
      (h.touch hi f) h2
    dsimp only at e1 e3
    rw [← h3] at e1
    have hm := e3.subset h2
    have e4 := e2.add hm hm ((orbit m.sig (m.vHe m.vs[i])).map (m.cotOf p)).sum
    rw [if_pos (by simp [f]), if_pos f, if_pos f, bind_apply, w.ringList_ok a]
    dsimp only
    rw [bind_apply, e1]
    refine ⟨_, rfl, ?_, h1.trans e3, fun _ => hm⟩
    dsimp only
    rw [zero_add, h3, ← idxOf_prefix e3 h2, ← List.append_assoc]
    exact e4
  · rw [if_neg (by simp [f]), if_neg f, if_neg f, List.append_nil, List.append_nil]
    exact ⟨t, rfl, h, List.prefix_rfl, fun h' => absurd h' f⟩

theorem lineSys_ok (w : m.WF) (A : m.AtE p) {fr : Nat → Bool} {cnt : Nat → XR}
    (hc : ∀ i, i < m.vs.length → cnt i = .fin (if fr i then 0 else 1)) :
    ∃ t, foldAll (lineRow cnt m.vs.length) (List.range m.vs.length) ⟨[], [], [], []⟩ m = .ok t m ∧
      SysHolds m.vs.length fr t ((List.range m.vs.length).flatMap (rowK m p fr)) ((List.range m.vs.length).flatMap (rowKF m p fr)) ∧
      ∀ i, i < m.vs.length → fr i = true → i ∈ t.free := by
  obtain ⟨t, h1, h2, h3⟩ := foldAll_range (m := m) (body := lineRow cnt m.vs.length) (b := ⟨[], [], [], []⟩)
    (P := fun k t => SysHolds m.vs.length fr t ((List.range k).flatMap (rowK m p fr)) ((List.range k).flatMap (rowKF m p fr)) ∧
      ∀ i, i < k → fr i = true → i ∈ t.free) m.vs.length
    ⟨⟨by simp, by simp, by simp, by simp, by simp, by simp, by simp, by simp⟩, by simp⟩
    (fun k t hk ⟨ht, hf⟩ => by
      obtain ⟨t', e1, e2, e3, e4⟩ := lineRow_ok w A hc hk ht
      refine ⟨t', e1, ?_, fun i hi f => ?_⟩
      · rw [List.range_succ, List.flatMap_append, List.flatMap_append]
        simpa using e2
      · by_cases e : i = k
        · subst e; exact e4 f
        · exact e3.subset (hf i (by omega) f))
  exact ⟨t, h1, h2, h3⟩

end
end TinyMesh
