import Verif.Proof.WholeA
import Verif.Proof.CtxF
import Verif.Proof.Session
import Verif.Props.Context
/-
The iterations of the context coherent completion keep a closed triangle mesh and never move a locked vertex.
-/
namespace TinyMesh
variable {F : Type} [ScalarX F] {m m' m1 m2 : Mesh F} {α β : Type}

/-- what every step of an iteration keeps -/
structure Mended (m m' : Mesh F) : Prop where
  call : CallDone m m'
  flag : ∀ h, m'.hAlive h = true → m'.hBd h = false
  lk : ∀ v, m'.vAlive v = true → (m'.vLock v = true ∧ m.vAlive v = true ∧ m.vLock v = true ∧ m'.vPos v = m.vPos v) ∨
    (m'.vLock v = false ∧ (m.vAlive v = true → m.vLock v = false))

theorem Mended.shut (h : Mended m m') : m'.Shut := .of h.call.good h.flag

theorem Mended.refl (s : m.Shut) : Mended m m := by
  refine ⟨.refl s.good, s.noFlag, fun v a => ?_⟩
  cases e : m.vLock v
  · exact .inr ⟨rfl, fun _ => rfl⟩
  · exact .inl ⟨rfl, a, rfl, rfl⟩

theorem Mended.trans (w : m.WF) (h : Mended m m1) (h' : Mended m1 m2) : Mended m m2 := by
  refine ⟨h.call.trans h'.call, h'.flag, fun v a => ?_⟩
  rcases h'.lk v a with ⟨l2, a1, l1, p⟩ | ⟨l2, f⟩
  · rcases h.lk v a1 with ⟨-, a0, l0, p0⟩ | ⟨l0, -⟩
    · exact .inl ⟨l2, a0, l0, p.trans p0⟩
    · rw [l1] at l0; cases l0
  · refine .inr ⟨l2, fun a0 => ?_⟩
    have a1 := h'.call.reuse.v v a (Nat.lt_of_lt_of_le (w.vBound v a0).2 h.call.reuse.vF)
    have l1 := f a1
    rcases h.lk v a1 with ⟨l, -⟩ | ⟨-, f0⟩
    · rw [l1] at l; cases l
    · exact f0 a0

/-- on a closed triangle mesh the program keeps what an iteration must keep -/
def Mends (x : M F α) : Prop := ∀ m a m', m.Shut → x m = .ok a m' → Mended m m'

theorem Mends.reads {x : M F α} (h : OnlyReads x) : Mends x := fun m a m' s e => by
  cases h m a m' e; exact .refl s

theorem Mends.bind {x : M F α} {f : α → M F β} (h : Mends x) (h' : ∀ a, Mends (f a)) : Mends (x >>= f) := fun m b m' s e => by
  rw [bind_apply] at e
  split at e
  · next a m1 e1 =>
    have k := h m a m1 s e1
    exact k.trans s.good.wf (h' a m1 b m' k.shut e)
  · cases e

theorem Mends.ite {c : Prop} [Decidable c] {x y : M F α} (h : Mends x) (h' : Mends y) : Mends (if c then x else y) := by
  split
  · exact h
  · exact h'

theorem Mends.circLoop {step : Nat → M F Nat} {body : Nat → β → M F (Bool × β)} {start : Nat} (hs : ∀ x, Mends (step x))
    (hb : ∀ x b, Mends (body x b)) : ∀ fuel cur b, Mends (circLoop step body start fuel cur b)
  | 0, _, _ => .reads (OnlyReads.fail _)
  | fuel + 1, cur, b => by
    unfold TinyMesh.circLoop
    exact .bind (hb _ _) fun x => .ite (.reads (OnlyReads.pure _)) (.bind (hs _) fun n => .ite (.reads (OnlyReads.pure _)) (circLoop hs hb fuel _ _))

theorem Mends.circ {step : Nat → M F Nat} {start : Nat} {b : β} {body : Nat → β → M F (Bool × β)} (hs : ∀ x, Mends (step x))
    (hb : ∀ x b, Mends (body x b)) : Mends (circ step start b body) := fun m a m' s e => by
  unfold TinyMesh.circ at e
  split at e
  · cases e; exact .refl s
  · exact Mends.circLoop hs hb _ _ _ m a m' s e

theorem Mends.foldAll {body : α → β → M F β} (h : ∀ a b, Mends (body a b)) : ∀ l b, Mends (foldAll body l b)
  | [], _ => .reads (OnlyReads.pure _)
  | a :: l, b => .bind (h a b) fun _ => foldAll h l _

/-- a program that begins with `getRev` fails for a half-edge that is not there -/
theorem alive_of_rev {h : Nat} {f : Nat → M F β} {b : β} (e : (getRev h >>= f) m = .ok b m') : m.hAlive h = true := by
  obtain ⟨a, e, -⟩ := OnlyReads.step (OnlyReads.getRev h) e
  unfold getRev at e
  split at e
  · assumption
  · cases e

theorem SplitStep.flags (s : m.Shut) {h he : Nat} (S : SplitStep m m' h he) : ∀ h, m'.hAlive h = true → m'.hBd h = false := by
  intro h a
  rcases (S.R.hal h).1 a with b | b | b | b | b | b | b
  · rw [S.R.B h b]; exact s.noFlag h b
  · exact b ▸ S.R.BN 0 (by omega)
  · exact b ▸ S.R.BN 1 (by omega)
  · exact b ▸ S.R.BN 2 (by omega)
  · exact b ▸ S.R.BN 3 (by omega)
  · exact b ▸ S.R.BN 4 (by omega)
  · exact b ▸ S.R.BN 5 (by omega)

theorem Mends.splitHE (h : Nat) : Mends (splitHE h : M F Bool) := fun m b m' s e => by
  have a := alive_of_rev e
  rcases splitHE_cases s.good a with e' | ⟨m2, he, S⟩
  · rw [e] at e'; cases e'; exact .refl s
  · have r := S.run
    rw [e] at r; cases r
    have D := S.done s.good
    refine ⟨RemDone.callDone (S.remDone s.good).1 (S.remDone s.good).2, S.flags s, fun v av => ?_⟩
    rcases D.only v av with o | rfl
    · obtain ⟨-, k1, k2⟩ := D.keeps v o
      cases l : m.vLock v
      · exact .inr ⟨by rw [k2, l], fun _ => rfl⟩
      · exact .inl ⟨by rw [k2, l], o, rfl, k1⟩
    · exact .inr ⟨D.unlocked, fun a0 => by have := D.fresh; rw [a0] at this; cases this⟩

theorem Mends.collapseHE (h : Nat) : Mends (collapseHE h : M F Bool) := fun m b m' s e => by
  have a := alive_of_rev e
  rcases collapse_step s.good a with e' | ⟨m2, p, q, e', S⟩ | ⟨e', -⟩
  · rw [e] at e'; cases e'; exact .refl s
  · rw [e] at e'; cases e'
    have d := S.done
    refine ⟨⟨d.good, ?_, S.noReuse, d.corresp s.good⟩, fun x ax => by rw [S.bd]; exact s.noFlag x (d.hOld x ax), fun v av => ?_⟩
    · have := d.nv; have := d.nh; have := d.nf
      unfold Mesh.euler2; omega
    · obtain ⟨k1, k2⟩ := d.keeps v av
      cases l : m.vLock v
      · exact .inr ⟨by rw [k2, l], fun _ => rfl⟩
      · exact .inl ⟨by rw [k2, l], ((d.alive v).1 av).1, rfl, k1⟩
  · rw [e] at e'; cases e'

theorem Mends.flipHE (h : Nat) : Mends (flipHE h : M F Bool) := fun m b m' s e => by
  have a := alive_of_rev e
  have t := s.tri h a
  have t' := s.tri _ (s.good.wf.rev_alive _ a)
  rcases flipHE_cases s.good a t t' with e' | ⟨m2, e', -, d⟩
  · rw [e] at e'; cases e'; exact .refl s
  · rw [e] at e'; cases e'
    obtain ⟨_, c, n, _⟩ := edit_corresp (e := Edit.flip h) s.good ⟨a, t, t'⟩ e
    refine ⟨⟨d.good, by unfold Mesh.euler2; rw [d.hes, d.vs, d.fs], n, c⟩, fun x ax => by rw [d.bd]; exact s.noFlag x (d.hAlive ▸ ax), fun v av => ?_⟩
    rw [d.vAlive] at av
    rw [d.lock, d.pos]
    cases l : m.vLock v
    · exact .inr ⟨rfl, fun _ => rfl⟩
    · exact .inl ⟨rfl, av, rfl, rfl⟩

theorem Mends.collapseFace (f : Nat) : Mends (collapseFace f : M F Bool) := by
  unfold TinyMesh.collapseFace
  exact .bind (.reads (.faceList _)) fun _ => .bind (.reads (.assert _)) fun _ => .bind (.reads (.getNext _)) fun _ => .bind (.reads (.getRev _)) fun _ =>
    .bind (.collapseHE _) fun _ => .bind (.reads (.getHIdx _)) fun _ => .bind (.reads (.read _)) fun _ => .bind (.reads (.assert _)) fun _ =>
    .bind (.collapseHE _) fun _ => .reads (.pure _)

theorem Mends.splitLong (lim : F) (v : Nat) : Mends (splitLong lim v) := by
  unfold TinyMesh.splitLong
  exact .bind (.reads (.getVHe _)) fun _ => .circ (fun _ => .reads (.ringStep _)) fun _ _ => .bind (.reads (.heLength _)) fun _ =>
    .ite (.bind (.splitHE _) fun _ => .reads (.pure _)) (.reads (.pure _))

theorem Mends.flipWide (v : Nat) : Mends (flipWide v : M F Bool) := by
  unfold TinyMesh.flipWide
  exact .bind (.reads (.getVHe _)) fun _ => .circ (fun _ => .reads (.ringStep _)) fun _ _ => .bind (.reads (.sideAngles _)) fun _ =>
    .ite (.bind (.flipHE _) fun _ => .reads (.pure _)) (.reads (.pure _))

theorem Mends.collapseThin (v : Nat) : Mends (collapseThin v : M F Bool) := by
  unfold TinyMesh.collapseThin
  exact .bind (.reads (.getVHe _)) fun _ => .circ (fun _ => .reads (.ringStep _)) fun _ _ => .bind (.reads (.sideAngles _)) fun _ =>
    .ite (.bind (.collapseHE _) fun _ => .reads (.pure _)) (.reads (.pure _))

theorem Mends.collapseSmall (lim : F) (v : Nat) : Mends (collapseSmall lim v) := by
  unfold TinyMesh.collapseSmall
  exact .bind (.reads (.getVHe _)) fun _ => .circ (fun _ => .reads (.ringStep _)) fun _ _ => .bind (.reads (.getFace _)) fun _ =>
    .bind (.reads (.getFIdx _)) fun _ => .ite (.reads (.pure _)) (.bind (.reads (.faceArea _)) fun _ =>
    .ite (.bind (.collapseFace _) fun _ => .reads (.pure _)) (.reads (.pure _)))

theorem Mends.repairLoop {step : Nat → M F Bool} (h : ∀ v, Mends (step v)) (t : Nat) : ∀ fuel, Mends (repairLoop step t fuel)
  | 0 => .reads (OnlyReads.fail _)
  | fuel + 1 => by
    unfold TinyMesh.repairLoop
    exact .bind (.reads (.read _)) fun _ => .ite (.reads (.pure _)) (.bind (.reads (.vertexAt _)) fun _ => .bind (h _) fun _ =>
      .ite (.bind (repairLoop h t fuel) fun _ => .reads (.pure _)) (.reads (.pure _)))

theorem Mends.repairAll {step : Nat → M F Bool} (h : ∀ v, Mends (step v)) (fuel : Nat) : ∀ ts, Mends (repairAll step fuel ts)
  | [] => .reads (OnlyReads.pure _)
  | t :: ts => .bind (.repairLoop h t fuel) fun _ => .bind (repairAll h fuel ts) fun _ => .reads (.pure _)

theorem Mends.repair (al aa : F) (fuel : Nat) (tgt : List Nat) : Mends (repair al aa fuel tgt) := by
  unfold TinyMesh.repair
  exact .bind (.repairAll (.splitLong _) _ _) fun _ => .bind (.repairAll .flipWide _ _) fun _ => .bind (.repairAll .collapseThin _ _) fun _ =>
    .bind (.repairAll (.collapseSmall _) _ _) fun _ => .reads (.pure _)

/-- the positions change at the given indices only -/
theorem stepTargets_only (pos xx : Nat → Vec3 F) : ∀ (is : List Nat) (k : Nat) (m m' : Mesh F), stepTargets pos xx k is m = .ok () m' →
    m.SameButPos m' ∧ ∀ v, (∀ i ∈ is, m.vs[i]? ≠ some v) → m'.vPos v = m.vPos v
  | [], k, m, m', e => by cases e; exact ⟨rfl, fun _ _ => rfl⟩
  | i :: is, k, m, m', e => by
    unfold stepTargets at e
    obtain ⟨v, e1, e⟩ := OnlyReads.step (OnlyReads.vertexAt _) e
    obtain ⟨p, -, e⟩ := OnlyReads.step (OnlyReads.getPos _) e
    rw [bind_apply] at e
    unfold setPos at e
    by_cases a : m.vAlive v = true
    · rw [if_pos a] at e
      obtain ⟨s, q⟩ := stepTargets_only pos xx is (k + 1) _ m' e
      refine ⟨by rw [s]; rfl, fun u hu => ?_⟩
      rw [q u fun j hj => hu j (List.mem_cons_of_mem _ hj)]
      have hv : m.vs[i]? = some v := by
        unfold vertexAt arrayAt at e1
        rw [if_neg (by omega)] at e1
        simp only [Int.toNat_natCast] at e1
        split at e1
        · cases e1
        · next w hw => cases e1; exact hw
      have : u ≠ v := fun h => hu i List.mem_cons_self (by rw [hv, h])
      simp [upd, this]
    · rw [if_neg a] at e; cases e

theorem moveTargets_mended (s : m.Shut) {solve : LinSolve F} {ts : List (Target F)} {tgt : List Nat}
    (ht : ∀ i ∈ tgt, ∀ v, m.vs[i]? = some v → m.vLock v = false) (e : moveTargets solve ts tgt m = .ok () m') : Mended m m' := by
  unfold moveTargets at e
  obtain ⟨_, -, e⟩ := OnlyReads.step (OnlyReads.votes _) e
  obtain ⟨_, -, e⟩ := OnlyReads.step (OnlyReads.smoothOffsets _ _ _) e
  obtain ⟨b, q⟩ := stepTargets_only _ _ _ _ _ _ e
  refine ⟨b.callDone s.good, fun h a => ?_, fun v a => ?_⟩
  · rw [b] at a ⊢; exact s.noFlag h a
  · have lk : m'.vLock v = m.vLock v := by rw [b]
    have a0 : m.vAlive v = true := by rw [b] at a; exact a
    cases l : m.vLock v
    · exact .inr ⟨by rw [lk, l], fun _ => rfl⟩
    · exact .inl ⟨by rw [lk, l], a0, rfl, q v fun i hi hv => by have := ht i hi v hv; rw [l] at this; cases this⟩

/-- the second result of `targets` are the indices of the vertices that are not locked -/
theorem targets_tgt (w : m.WF) {L : CohLib F} {r : Int} {dims : Nat} {hks : Nat → Option (List F)} {ts : List (Target F)} {tgt : List Nat}
    (e : targets L r dims hks m = .ok (ts, tgt) m') : ∀ i, i ∈ tgt ↔ ∃ v, m.vs[i]? = some v ∧ m.vLock v = false := by
  unfold targets at e
  obtain ⟨n, e0, e⟩ := OnlyReads.step (OnlyReads.read _) e
  obtain ⟨ps, -, e⟩ := OnlyReads.step (OnlyReads.eachM (OnlyReads.patchOf _ _ _) _) e
  obtain ⟨⟨src, tg⟩, e1, e⟩ := OnlyReads.step (OnlyReads.srcTgt _) e
  cases e0
  obtain ⟨src', tgt', k, -, -, -, kt⟩ := c83_sides w
  rw [k] at e1
  cases e1
  obtain ⟨_, -, e⟩ := OnlyReads.step (OnlyReads.eachM (fun _ => OnlyReads.bind (OnlyReads.atIdx _ _) fun _ => OnlyReads.descriptor _ _ _ _) _) e
  obtain ⟨_, -, e⟩ := OnlyReads.step (OnlyReads.featureLines _ _ _) e
  obtain ⟨_, -, e⟩ := OnlyReads.step (OnlyReads.eachM (OnlyReads.matchTarget _ _ _ _ _ _) _) e
  cases e
  exact kt

theorem Mends.cohRound (L : CohLib F) (r : Int) (al aa : F) (dims fuel : Nat) (hks : Nat → Option (List F)) :
    Mends (cohRound L r al aa dims fuel hks) := fun m a m' s e => by
  unfold TinyMesh.cohRound at e
  obtain ⟨⟨ts, tgt⟩, e1, e⟩ := OnlyReads.step (OnlyReads.targets _ _ _ _) e
  have ht := targets_tgt s.good.wf e1
  dsimp only at e
  rw [bind_apply] at e
  split at e
  · next u m1 e2 =>
    have k := moveTargets_mended s (fun i hi v hv => by
      obtain ⟨v', h1, h2⟩ := (ht i).1 hi
      rw [h1] at hv; cases hv; exact h2) e2
    exact k.trans s.good.wf (Mends.bind (.repair _ _ _ _) (fun _ => .ite (.bind (.reads (.hksUpdate _ _)) fun _ => .bind (.reads .verify) fun _ => .reads (.pure _))
      (.bind (.reads (.pure _)) fun _ => .bind (.reads .verify) fun _ => .reads (.pure _))) m1 a m' k.shut e)
  · cases e

theorem Mends.cohLoop (L : CohLib F) (r : Int) (al aa : F) (dims fuel : Nat) : ∀ k hks, Mends (cohLoop L r al aa dims fuel k hks)
  | 0, _ => .reads (.pure _)
  | k + 1, _ => .bind (.cohRound _ _ _ _ _ _ _) fun _ => cohLoop L r al aa dims fuel k _

end TinyMesh
