import Verif.Model.Files

/-!
# Properties C63, C64, C74–C76: backups, files without dump, results of all iterations, errors while writing, exporters
-/

namespace Verif

/-! ### C63 -/

theorem getLast_backup (p : FilePath) (stamp : Nat → Str) (t : Nat) :
    (backupPath stamp p t).dir.getLast? = some backupName := by
  simp [backupPath]

theorem backupPath_ne (stamp : Nat → Str) (p : FilePath) (t : Nat) : backupPath stamp p t ≠ p := by
  intro h
  have := congrArg (fun q => q.dir.length) h
  simp [backupPath] at this

theorem backupPath_inj {stamp : Nat → Str} (hlen : ∀ s t, (stamp s).length = (stamp t).length)
    (hinj : ∀ s t, stamp s = stamp t → s = t) {p q : FilePath} {s t : Nat}
    (h : backupPath stamp p s = backupPath stamp q t) : p = q ∧ s = t := by
  obtain ⟨pd, pb⟩ := p
  obtain ⟨qd, qb⟩ := q
  simp only [backupPath, FilePath.mk.injEq] at h
  obtain ⟨h1, h2⟩ := h
  have e1 : pd = qd := List.append_cancel_right h1
  have hl : (pb ++ '@' :: stamp s).length = (qb ++ '@' :: stamp t).length := by rw [h2]
  simp only [List.length_append, List.length_cons, hlen s t] at hl
  have hb := List.append_inj h2 (by omega)
  have e3 : stamp s = stamp t := by simpa using hb.2
  exact ⟨by rw [e1, hb.1], hinj _ _ e3⟩

/-- What a write with backup does, for a file that exists. -/
theorem safeWrite_files (stamp : Nat → Str) (now : Nat) (p : FilePath) (mode text : Str) (d : Disk) (e : FileEntry)
    (hw : mode.contains 'w' = true) (he : Dict.get? d.files p = some e) :
    (d.safeWrite stamp now p mode true text).files =
      Dict.set (Dict.set d.files (backupPath stamp p e.ctime) ⟨e.content, now⟩) p ⟨text, now⟩ := by
  have hm : ∀ dir, (d.mkdir dir).files = d.files := by
    intro dir; unfold Disk.mkdir; split <;> rfl
  have hm2 : ∀ dir dir', ((d.mkdir dir).mkdir dir').files = d.files := by
    intro dir dir'
    have : ∀ d' : Disk, (d'.mkdir dir').files = d'.files := by
      intro d'; unfold Disk.mkdir; split <;> rfl
    rw [this, hm]
  simp only [Disk.safeWrite, hw, Bool.and_self, if_true, Disk.tryBackup, hm, he, hm2, List.nil_append, Bool.false_eq_true,
    if_false]

theorem mkdir_files (d : Disk) (dir : List Str) : (d.mkdir dir).files = d.files := by
  unfold Disk.mkdir; split <;> rfl

theorem tryBackup_files (stamp : Nat → Str) (now : Nat) (p : FilePath) (remove : Bool) (d : Disk) :
    (d.tryBackup stamp now p remove).files = match Dict.get? d.files p with
      | none => d.files
      | some e => Dict.set (if remove then Dict.del d.files p else d.files) (backupPath stamp p e.ctime) ⟨e.content, now⟩ := by
  unfold Disk.tryBackup
  cases Dict.get? d.files p with
  | none => rfl
  | some e => simp only [mkdir_files]

/-- The contents are the same, possibly longer. -/
def FileEntry.extends (e' e : FileEntry) : Prop := ∃ more, e'.content = e.content ++ more

/-- The effect of one operation on one file: it stays (possibly longer), or it is the file of the operation, whose previous
contents are in the backup named after its `ctime`. All files that appear are this backup and the file of the operation. -/
theorem fileOp_effect (stamp : Nat → Str) (now : Nat) (op : FileOp) (d : Disk) (hwf : Dict.WF d.files) :
    let d' := op.exec stamp now d
    Dict.WF d'.files ∧
    (∀ r, r ≠ op.path → (∀ e, Dict.get? d.files op.path = some e → r ≠ backupPath stamp op.path e.ctime) →
      Dict.get? d'.files r = Dict.get? d.files r) ∧
    (∀ e, Dict.get? d.files op.path = some e →
      ((∃ e', Dict.get? d'.files op.path = some e' ∧ e'.extends e) ∧
        Dict.get? d'.files (backupPath stamp op.path e.ctime) = Dict.get? d.files (backupPath stamp op.path e.ctime)) ∨
      (Dict.get? d'.files (backupPath stamp op.path e.ctime) = some ⟨e.content, now⟩ ∧
        ∀ e', Dict.get? d'.files op.path = some e' → e'.ctime = now)) ∧
    (∀ e', Dict.get? d'.files op.path = some e' → Dict.get? d.files op.path = some e' ∨ e'.ctime = now) := by
  intro d'
  -- all operations have the same shape: an optional backup, then an optional removal, then an optional write
  cases op with
  | write p mode text =>
    simp only [FileOp.path]
    have hfiles : d'.files =
        (let d2 := if mode.contains 'w' then (d.mkdir p.dir).tryBackup stamp now p false else d.mkdir p.dir
         Dict.set d2.files p ⟨(if mode.contains 'w' then [] else d2.contentOf p) ++ text, now⟩) := by
      simp only [d', FileOp.exec, Disk.safeWrite, Bool.true_and]
    by_cases hw : mode.contains 'w' = true
    · simp only [hw, if_true, tryBackup_files, mkdir_files, Bool.false_eq_true, if_false] at hfiles
      cases he : Dict.get? d.files p with
      | none =>
        rw [he] at hfiles
        refine ⟨by rw [hfiles]; exact hwf.set _ _, ?_, ?_, ?_⟩
        · intro r hr _; rw [hfiles, Dict.get?_set_ne _ _ (Ne.symm hr)]
        · intro e h; cases h
        · intro e' h; rw [hfiles] at h; simp at h; right; rw [← h]
      | some e =>
        rw [he] at hfiles
        refine ⟨by rw [hfiles]; exact (hwf.set _ _).set _ _, ?_, ?_, ?_⟩
        · intro r hr hr2
          rw [hfiles, Dict.get?_set_ne _ _ (Ne.symm hr), Dict.get?_set_ne _ _ (Ne.symm (hr2 e rfl))]
        · intro e1 h1
          cases h1
          right
          refine ⟨by rw [hfiles, Dict.get?_set_ne _ _ (Ne.symm (backupPath_ne stamp p e.ctime))]; simp, ?_⟩
          intro e' h; rw [hfiles] at h; simp at h; rw [← h]
        · intro e' h; rw [hfiles] at h; simp at h; right; rw [← h]
    · simp only [hw, Bool.false_eq_true, if_false] at hfiles
      rw [mkdir_files] at hfiles
      refine ⟨by rw [hfiles]; exact hwf.set _ _, ?_, ?_, ?_⟩
      · intro r hr _; rw [hfiles, Dict.get?_set_ne _ _ (Ne.symm hr)]
      · intro e he
        left
        refine ⟨⟨_, by rw [hfiles]; exact Dict.get?_set_self _ _ _, text, ?_⟩, ?_⟩
        · simp [Disk.contentOf, mkdir_files, he]
        · rw [hfiles, Dict.get?_set_ne _ _ (Ne.symm (backupPath_ne stamp p e.ctime))]
      · intro e' h; rw [hfiles] at h; simp at h; right; rw [← h]
  | dbAppend p rows =>
    simp only [FileOp.path]
    have hd : d' = (d.dbAppend now p rows).1 := rfl
    unfold Disk.dbAppend at hd
    by_cases hdir : p.dir ∈ d.dirs
    · rw [if_pos hdir] at hd
      have hfiles : d'.files = Dict.set d.files p ⟨d.contentOf p ++ rows, now⟩ := by rw [hd]
      refine ⟨by rw [hfiles]; exact hwf.set _ _, ?_, ?_, ?_⟩
      · intro r hr _; rw [hfiles, Dict.get?_set_ne _ _ (Ne.symm hr)]
      · intro e he
        left
        refine ⟨⟨_, by rw [hfiles]; exact Dict.get?_set_self _ _ _, rows, by simp [Disk.contentOf, he]⟩, ?_⟩
        rw [hfiles, Dict.get?_set_ne _ _ (Ne.symm (backupPath_ne stamp p e.ctime))]
      · intro e' h; rw [hfiles] at h; simp at h; right; rw [← h]
    · rw [if_neg hdir] at hd
      rw [hd]
      exact ⟨hwf, fun _ _ _ => rfl, fun e he => Or.inl ⟨⟨e, he, [], by simp⟩, rfl⟩, fun e' h => Or.inl h⟩
  | dbStart p overwrite rows =>
    simp only [FileOp.path]
    have hd : d' = (d.dbStart stamp now p true overwrite rows).1 := rfl
    simp only [Disk.dbStart, if_true] at hd
    generalize hd1 : d.tryBackup stamp now p true = d1 at hd
    have hf1 : d1.files = match Dict.get? d.files p with
      | none => d.files
      | some e => Dict.set (Dict.del d.files p) (backupPath stamp p e.ctime) ⟨e.content, now⟩ := by
      rw [← hd1, tryBackup_files]; rfl
    have hp1 : Dict.get? d1.files p = none := by
      rw [hf1]
      cases he : Dict.get? d.files p with
      | none => exact he
      | some e =>
        simp only
        rw [Dict.get?_set_ne _ _ (backupPath_ne stamp p e.ctime), Dict.get?_del _ hwf, if_pos rfl]
    have hwf1 : Dict.WF d1.files := by
      rw [hf1]
      cases Dict.get? d.files p with
      | none => exact hwf
      | some e => exact (hwf.del _).set _ _
    generalize hd2 : (if overwrite then ({ d1 with files := Dict.del d1.files p } : Disk) else d1) = d2 at hd
    have hget2 : ∀ r, Dict.get? d2.files r = Dict.get? d1.files r := by
      intro r
      rw [← hd2]
      cases overwrite with
      | false => rfl
      | true =>
        simp only [if_true]
        rw [Dict.get?_del _ hwf1]
        split
        · rename_i h; rw [← h, hp1]
        · rfl
    have hwf2 : Dict.WF d2.files := by
      rw [← hd2]; cases overwrite with
      | false => exact hwf1
      | true => exact hwf1.del _
    have hget3 : ∀ r, r ≠ p → Dict.get? d'.files r = Dict.get? d1.files r := by
      intro r hr
      rw [hd, ← hget2]
      unfold Disk.dbAppend
      split
      · simp only; rw [Dict.get?_set_ne _ _ (Ne.symm hr)]
      · rfl
    have hnow : ∀ e', Dict.get? d'.files p = some e' → e'.ctime = now := by
      intro e' h
      rw [hd] at h
      unfold Disk.dbAppend at h
      split at h
      · simp at h; rw [← h]
      · simp only at h; rw [hget2, hp1] at h; cases h
    refine ⟨?_, ?_, ?_, ?_⟩
    · rw [hd]; unfold Disk.dbAppend
      split
      · exact hwf2.set _ _
      · exact hwf2
    · intro r hr hr2
      rw [hget3 r hr, hf1]
      cases he : Dict.get? d.files p with
      | none => rfl
      | some e =>
        simp only
        rw [Dict.get?_set_ne _ _ (Ne.symm (hr2 e he)), Dict.get?_del _ hwf, if_neg (Ne.symm hr)]
    · intro e he
      right
      refine ⟨?_, hnow⟩
      rw [hget3 _ (backupPath_ne stamp p e.ctime), hf1, he]
      simp
    · intro e' h
      exact Or.inr (hnow e' h)

/-- C63 for one operation with backups enabled: the previous contents of the file are afterwards at the beginning of the file
(when it is appended to) or in `backup/`, in a file named after it. -/
theorem C63_previous_kept (stamp : Nat → Str) (now : Nat) (op : FileOp) (d : Disk) (hwf : Dict.WF d.files) (e : FileEntry)
    (he : Dict.get? d.files op.path = some e) :
    ∃ r e', Dict.get? (op.exec stamp now d).files r = some e' ∧ e'.extends e ∧
      (r = op.path ∨ r = ⟨op.path.dir ++ ["backup".toList], op.path.base ++ '@' :: stamp e.ctime⟩) := by
  rcases (fileOp_effect stamp now op d hwf).2.2.1 e he with ⟨⟨e', h1, h2⟩, _⟩ | ⟨h, _⟩
  · exact ⟨_, e', h1, h2, Or.inl rfl⟩
  · exact ⟨_, _, h, ⟨[], by simp⟩, Or.inr rfl⟩

/-- Backups of a result file carry seconds before its `ctime`. -/
structure BackupInv (stamp : Nat → Str) (last : Nat) (d : Disk) : Prop where
  wf : Dict.WF d.files
  ctimes : ∀ p e, Dict.get? d.files p = some e → e.ctime ≤ last
  old : ∀ p s, p.dir.getLast? ≠ some backupName → Dict.get? d.files (backupPath stamp p s) ≠ none →
    s ≤ last ∧ ∀ e, Dict.get? d.files p = some e → s < e.ctime

/-- Every operation happens in a later second than the one before, on a file outside `backup/`. -/
def Spaced : Nat → List (Nat × FileOp) → Prop
  | _, [] => True
  | last, (now, op) :: rest => last < now ∧ op.path.dir.getLast? ≠ some backupName ∧ Spaced now rest

section
variable {stamp : Nat → Str} (hlen : ∀ s t, (stamp s).length = (stamp t).length) (hinj : ∀ s t, stamp s = stamp t → s = t)
include hlen hinj

theorem backup_absent {last : Nat} {d : Disk} (h : BackupInv stamp last d) {p : FilePath} {e : FileEntry}
    (hp : p.dir.getLast? ≠ some backupName) (he : Dict.get? d.files p = some e) :
    Dict.get? d.files (backupPath stamp p e.ctime) = none := by
  by_contra hne
  have := (h.old p e.ctime hp hne).2 e he
  omega

theorem BackupInv.step {last now : Nat} {d : Disk} (h : BackupInv stamp last d) (op : FileOp) (hnow : last < now)
    (hp : op.path.dir.getLast? ≠ some backupName) :
    BackupInv stamp now (op.exec stamp now d) ∧
    (∀ r e, r.dir.getLast? = some backupName → Dict.get? d.files r = some e →
      Dict.get? (op.exec stamp now d).files r = some e) ∧
    (∀ r e, Dict.get? d.files r = some e → ∃ r' e', Dict.get? (op.exec stamp now d).files r' = some e' ∧ e'.extends e ∧
      (r' = r ∨ ∃ s, r' = backupPath stamp r s)) := by
  obtain ⟨hwf', hother, hown, hct⟩ := fileOp_effect stamp now op d h.wf
  generalize hd' : op.exec stamp now d = d' at hwf' hother hown hct
  have hbk : ∀ e, Dict.get? d.files op.path = some e →
      Dict.get? d'.files (backupPath stamp op.path e.ctime) = none ∨
      Dict.get? d'.files (backupPath stamp op.path e.ctime) = some ⟨e.content, now⟩ := by
    intro e he
    rcases hown e he with ⟨_, h2⟩ | ⟨h2, _⟩
    · left; rw [h2]; exact backup_absent hlen hinj h hp he
    · exact Or.inr h2
  have hsame : ∀ r e, Dict.get? d.files r = some e → r ≠ op.path → Dict.get? d'.files r = some e := by
    intro r e hr hne
    rw [hother r hne, hr]
    intro e1 he1 heq
    rw [heq, backup_absent hlen hinj h hp he1] at hr
    cases hr
  refine ⟨⟨hwf', ?_, ?_⟩, ?_, ?_⟩
  · intro p e he
    by_cases h1 : p = op.path
    · subst h1
      rcases hct e he with h2 | h2
      · have := h.ctimes _ _ h2; omega
      · omega
    · by_cases h2 : ∃ e1, Dict.get? d.files op.path = some e1 ∧ p = backupPath stamp op.path e1.ctime
      · obtain ⟨e1, he1, rfl⟩ := h2
        rcases hbk e1 he1 with h3 | h3
        · rw [h3] at he; cases he
        · rw [h3] at he; cases he; exact Nat.le_refl _
      · rw [hother p h1 (fun e1 he1 heq => h2 ⟨e1, he1, heq⟩)] at he
        have := h.ctimes _ _ he; omega
  · intro p s hpd hne
    -- the backup existed before, or is the new one
    have hcase : Dict.get? d.files (backupPath stamp p s) ≠ none ∨
        ∃ e1, Dict.get? d.files op.path = some e1 ∧ p = op.path ∧ s = e1.ctime := by
      by_cases h2 : ∃ e1, Dict.get? d.files op.path = some e1 ∧ backupPath stamp p s = backupPath stamp op.path e1.ctime
      · obtain ⟨e1, he1, heq⟩ := h2
        obtain ⟨h3, h4⟩ := backupPath_inj hlen hinj heq
        exact Or.inr ⟨e1, he1, h3, h4⟩
      · left
        rwa [hother _ (by
          intro heq
          rw [← heq, getLast_backup] at hp
          exact hp rfl) (fun e1 he1 heq => h2 ⟨e1, he1, heq⟩)] at hne
    rcases hcase with hold | ⟨e1, he1, rfl, rfl⟩
    · obtain ⟨h3, h4⟩ := h.old p s hpd hold
      refine ⟨by omega, ?_⟩
      intro e he
      by_cases h1 : p = op.path
      · subst h1
        rcases hct e he with h5 | h5
        · exact h4 e h5
        · omega
      · have h6 : ∀ e1, Dict.get? d.files op.path = some e1 → p ≠ backupPath stamp op.path e1.ctime := by
          intro e1 _ heq
          rw [heq, getLast_backup] at hpd
          exact hpd rfl
        rw [hother p h1 h6] at he
        exact h4 e he
    · have hle := h.ctimes _ _ he1
      refine ⟨by omega, ?_⟩
      intro e he
      rcases hown e1 he1 with ⟨_, h6⟩ | ⟨_, h6⟩
      · rw [h6] at hne
        exact absurd (backup_absent hlen hinj h hp he1) hne
      · have := h6 e he; omega
  · intro r e hr hre
    exact hsame r e hre (by rintro rfl; exact hp hr)
  · intro r e hre
    by_cases h1 : r = op.path
    · subst h1
      rcases hown e hre with ⟨⟨e', h2, h3⟩, _⟩ | ⟨h2, _⟩
      · exact ⟨_, e', h2, h3, Or.inl rfl⟩
      · exact ⟨_, _, h2, ⟨[], by simp⟩, Or.inr ⟨_, rfl⟩⟩
    · exact ⟨r, e, hsame r e hre h1, ⟨[], by simp⟩, Or.inl rfl⟩

theorem runFiles_inv {last : Nat} {d : Disk} (h : BackupInv stamp last d) (ops : List (Nat × FileOp)) (hs : Spaced last ops) :
    (∃ last', BackupInv stamp last' (runFiles stamp ops d)) ∧
    (∀ r e, r.dir.getLast? = some backupName → Dict.get? d.files r = some e →
      Dict.get? (runFiles stamp ops d).files r = some e) ∧
    (∀ r e, Dict.get? d.files r = some e → ∃ r' e', Dict.get? (runFiles stamp ops d).files r' = some e' ∧ e'.extends e ∧
      (r' = r ∨ ∃ s, r' = backupPath stamp r s)) := by
  induction ops generalizing last d with
  | nil => exact ⟨⟨last, h⟩, fun _ _ _ h => h, fun r e h => ⟨r, e, h, ⟨[], by simp⟩, Or.inl rfl⟩⟩
  | cons o ops ih =>
    obtain ⟨now, op⟩ := o
    obtain ⟨hnow, hp, hrest⟩ := hs
    obtain ⟨h1, h2, h3⟩ := h.step hlen hinj op hnow hp
    obtain ⟨i1, i2, i3⟩ := ih h1 hrest
    refine ⟨i1, fun r e hr hre => i2 r e hr (h2 r e hr hre), ?_⟩
    intro r e hre
    obtain ⟨r1, e1, hr1, hx1, hc1⟩ := h3 r e hre
    rcases hc1 with rfl | ⟨s, rfl⟩
    · obtain ⟨r2, e2, hr2, ⟨m2, hx2⟩, hc2⟩ := i3 r1 e1 hr1
      obtain ⟨m1, hx1⟩ := hx1
      exact ⟨r2, e2, hr2, ⟨m1 ++ m2, by rw [hx2, hx1]; simp⟩, hc2⟩
    · exact ⟨_, e1, i2 _ e1 (getLast_backup r stamp s) hr1, hx1, Or.inr ⟨s, rfl⟩⟩

/-- C63 for whole histories, what holds: if all operations happen in different seconds, then whatever any file contains at any
moment is kept until the end, at the beginning of the file or in one of its backups, and no backup ever changes. `stamp` gives
different names to different seconds (not so in the hour that is repeated when clocks are set back). Missing: operations in
the same second, see below. -/
theorem C63_history_partial (d : Disk) (hd : Dict.WF d.files) (last : Nat)
    (hct : ∀ p e, Dict.get? d.files p = some e → e.ctime ≤ last) (hno : ∀ p s, Dict.get? d.files (backupPath stamp p s) = none)
    (past future : List (Nat × FileOp)) (hs : Spaced last (past ++ future)) (r : FilePath) (e : FileEntry)
    (hre : Dict.get? (runFiles stamp past d).files r = some e) :
    ∃ r' e', Dict.get? (runFiles stamp (past ++ future) d).files r' = some e' ∧ (∃ more, e'.content = e.content ++ more) ∧
      (r' = r ∨ ∃ s, r' = ⟨r.dir ++ ["backup".toList], r.base ++ '@' :: stamp s⟩) ∧
      (r.dir.getLast? = some "backup".toList → Dict.get? (runFiles stamp (past ++ future) d).files r = some e) := by
  have h0 : BackupInv stamp last d := ⟨hd, hct, fun p s _ hne => absurd (hno p s) hne⟩
  have hsplit : ∀ (a b : List (Nat × FileOp)) (last : Nat) (d : Disk), Spaced last (a ++ b) → BackupInv stamp last d →
      runFiles stamp (a ++ b) d = runFiles stamp b (runFiles stamp a d) ∧
      ∃ last', BackupInv stamp last' (runFiles stamp a d) ∧ Spaced last' b := by
    intro a
    induction a with
    | nil => exact fun b last d hs h => ⟨rfl, last, h, hs⟩
    | cons o a ih =>
      obtain ⟨now, op⟩ := o
      intro b last d hs h
      obtain ⟨hnow, hp, hrest⟩ := hs
      exact ih b now _ hrest (h.step hlen hinj op hnow hp).1
  obtain ⟨e1, last', h1, hs1⟩ := hsplit past future last d hs h0
  obtain ⟨_, i2, i3⟩ := runFiles_inv hlen hinj h1 future hs1
  rw [e1]
  obtain ⟨r', e', a1, a2, a3⟩ := i3 r e hre
  exact ⟨r', e', a1, a2, a3, fun hb => i2 r e hb hre⟩

end

/-- C63 is violated: of three results written with backups, the first of which is replaced in the second in which it was
written, the first one is lost. -/
theorem C63_same_second_false (stamp : Nat → Str) (p : FilePath) (t t' : Nat) (v1 v2 v3 : Str) (d : Disk)
    (hd : Dict.get? d.files p = none) (hnew : ∀ r e, Dict.get? d.files r = some e → e.content ≠ v1)
    (h12 : v1 ≠ v2) (h13 : v1 ≠ v3) :
    let ops : List (Nat × FileOp) := [(t, .write p ['w'] v1), (t, .write p ['w'] v2), (t', .write p ['w'] v3)]
    (Dict.get? (runFiles stamp (ops.take 1) d).files p).map FileEntry.content = some v1 ∧
    ∀ r e, Dict.get? (runFiles stamp ops d).files r = some e → e.content ≠ v1 := by
  intro ops
  have f1 : (runFiles stamp (ops.take 1) d).files = Dict.set d.files p ⟨v1, t⟩ := by
    simp [ops, runFiles, FileOp.exec, Disk.safeWrite, tryBackup_files, mkdir_files, hd]
  refine ⟨by rw [f1]; simp, ?_⟩
  intro r e hre
  have hrun : runFiles stamp ops d = Disk.safeWrite stamp t' p ['w'] true v3 (Disk.safeWrite stamp t p ['w'] true v2
      (runFiles stamp (ops.take 1) d)) := rfl
  have f2 := safeWrite_files stamp t p ['w'] v2 (runFiles stamp (ops.take 1) d) ⟨v1, t⟩ rfl (by rw [f1]; simp)
  have f3 := safeWrite_files stamp t' p ['w'] v3 _ ⟨v2, t⟩ rfl
    (by rw [f2]; simp : Dict.get? (Disk.safeWrite stamp t p ['w'] true v2 (runFiles stamp (ops.take 1) d)).files p = _)
  rw [hrun, f3, f2, f1] at hre
  simp only at hre
  rw [Dict.get?_set] at hre
  split at hre
  · cases hre; exact Ne.symm h13
  · rename_i hrp
    rw [Dict.get?_set] at hre
    split at hre
    · cases hre; exact Ne.symm h12
    · rename_i hrq
      rw [Dict.get?_set_ne _ _ hrp, Dict.get?_set_ne _ _ hrq, Dict.get?_set_ne _ _ hrp] at hre
      exact hnew r e hre

/-- A stamp for examples. -/
def exStamp (t : Nat) : Str := (toString (1000 + t)).toList

/-- A disk with one result from second 3. -/
def exDisk : Disk := ⟨[(⟨["out".toList], "g".toList⟩, ⟨"one".toList, 3⟩)], [["out".toList]]⟩

/-- Two writes and an append in different seconds: everything is kept. -/
example : (runFiles exStamp [(5, .write ⟨["out".toList], "g".toList⟩ ['w'] "two".toList),
      (8, .write ⟨["out".toList], "g".toList⟩ ['a'] "+".toList),
      (9, .write ⟨["out".toList], "g".toList⟩ ['w', 'b'] "three".toList)] exDisk).files =
    [(⟨["out".toList], "g".toList⟩, ⟨"three".toList, 9⟩),
     (⟨["out".toList, backupName], "g@1003".toList⟩, ⟨"one".toList, 5⟩),
     (⟨["out".toList, backupName], "g@1008".toList⟩, ⟨"two+".toList, 9⟩)] := by decide +kernel

/-- In the same second the second result is lost. -/
example : (runFiles exStamp [(5, .write ⟨["out".toList], "g".toList⟩ ['w'] "two".toList),
      (5, .write ⟨["out".toList], "g".toList⟩ ['w'] "three".toList),
      (5, .write ⟨["out".toList], "g".toList⟩ ['w'] "four".toList)] exDisk).files =
    [(⟨["out".toList], "g".toList⟩, ⟨"four".toList, 5⟩),
     (⟨["out".toList, backupName], "g@1003".toList⟩, ⟨"one".toList, 5⟩),
     (⟨["out".toList, backupName], "g@1005".toList⟩, ⟨"three".toList, 5⟩)] := by decide +kernel

/-! ### C64 -/

/-- C64: without dump no sequence of calls of exporters changes anything on the disk. -/
theorem C64_no_files (c : ExportCtx) (hc : c.dump = false) (stamp : Nat → Str)
    (calls : List (Nat × SoilExporter × ExportHook)) (w : ExportWorld) :
    (runHooks c stamp calls w).1.disk = w.disk := by
  have hout : ∀ now f mode text w, (c.output stamp now f mode text w).disk = w.disk := by
    intro now f mode text w; simp [ExportCtx.output, hc]
  have hbasic : ∀ now (b : BasicExporter) h w, (b.hook c stamp now h w).1.disk = w.disk := by
    intro now b h w
    cases b <;> cases h <;> simp only [BasicExporter.hook, hc, Bool.false_eq_true, if_false, hout]
    -- csv writes one file per data frame
    rename_i env
    generalize env.frames = l
    induction l generalizing w with
    | nil => rfl
    | cons x l ih => simp only [List.foldl_cons]; rw [ih, hout]
  have hall : ∀ now h (bs : List BasicExporter) w, (hookAll c stamp now h bs w).1.disk = w.disk := by
    intro now h bs
    induction bs with
    | nil => intro w; rfl
    | cons b bs ih =>
      intro w
      simp only [hookAll]
      split
      · exact hbasic now b h w
      · rw [ih, hbasic]
  have hone : ∀ now (e : SoilExporter) h w, (e.hook c stamp now h w).1.disk = w.disk := by
    intro now e h w
    cases e with
    | basic b => exact hbasic now b h w
    | default inner =>
      simp only [SoilExporter.hook]
      split
      · rfl
      · exact hall now h inner w
  induction calls generalizing w with
  | nil => rfl
  | cons x calls ih =>
    obtain ⟨now, e, h⟩ := x
    simp only [runHooks]
    split
    · exact hone now e h w
    · rw [ih, hone]

/-- C64 is about something: with dump every kind of exporter that produces results does change the disk. -/
def exCtx (dump : Bool) : ExportCtx :=
  { outdir := ["out".toList], name := "sim".toList, id := "sim_1".toList, dump := dump, backup := false, overwrite := false,
    configRow := "cfg;".toList, yaml := "name: sim".toList }

/-- An environment with two data frames. -/
def exEnv (id graph : String) : ExportEnv :=
  ⟨id.toList, [("env".toList, "1,2;".toList), ("agents".toList, "3;".toList)], "p=1;".toList, graph.toList⟩

/-- Calls of a simulation with one iteration. -/
def exCalls (e : SoilExporter) : List (Nat × SoilExporter × ExportHook) :=
  [(1, e, .simStart), (2, e, .iterationEnd (exEnv "0" "A-B")), (3, e, .simEnd)]

example : ((runHooks (exCtx true) exStamp (exCalls (.basic .csv)) ⟨⟨[], []⟩, []⟩).1.disk.files =
      [(⟨["out".toList], "0.env.csv".toList⟩, ⟨"1,2;".toList, 2⟩), (⟨["out".toList], "0.agents.csv".toList⟩, ⟨"3;".toList, 2⟩)]) ∧
    ((runHooks (exCtx false) exStamp (exCalls (.basic .csv)) ⟨⟨[], []⟩, []⟩).1 =
      ⟨⟨[], []⟩, [("0.env.csv".toList, "1,2;".toList), ("0.agents.csv".toList, "3;".toList)]⟩) ∧
    ((runHooks (exCtx true) exStamp (exCalls (.default [.yaml, .sqlite])) ⟨⟨[], []⟩, []⟩).1.disk.files =
      [(⟨["out".toList], "sim_1.dumped.yml".toList⟩, ⟨"name: sim".toList, 1⟩),
       (⟨["out".toList], "sim.sqlite".toList⟩, ⟨"cfg;p=1;1,2;3;".toList, 2⟩)]) := by decide +kernel

/-! ### C74: results of all iterations -/

/-- The calls of a simulation (soil/simulation.py:154-170) for one exporter: `graph i j` is the graph of iteration `j` for the
`i`-th combination of parameters; the id of an environment is the number of its iteration. -/
def simCalls (e : SoilExporter) (now : Nat → Nat) (idOf : Nat → Str) (graph : Nat → Nat → Str) (combos iterations : Nat) :
    List (Nat × SoilExporter × ExportHook) :=
  (List.range combos).flatMap (fun i => (List.range iterations).map (fun j =>
    (now (i * iterations + j), e, .iterationEnd ⟨idOf j, [], [], graph i j⟩)))

theorem runHooks_append (c : ExportCtx) (stamp : Nat → Str) (a b : List (Nat × SoilExporter × ExportHook)) (w : ExportWorld)
    (h : (runHooks c stamp a w).2 = false) :
    runHooks c stamp (a ++ b) w = runHooks c stamp b (runHooks c stamp a w).1 := by
  induction a generalizing w with
  | nil => rfl
  | cons x a ih =>
    obtain ⟨now, e, hk⟩ := x
    simp only [runHooks, List.cons_append] at h ⊢
    split at h
    · rename_i hr; rw [hr] at h; cases h
    · rename_i hr
      rw [if_neg hr, if_neg hr]
      exact ih _ h

/-- One iteration exported as a graph. -/
theorem gexf_call (c : ExportCtx) (hc : c.dump = true) (hb : c.backup = false) (stamp : Nat → Str) (now : Nat)
    (env : ExportEnv) (w : ExportWorld) :
    (SoilExporter.hook c stamp now (.iterationEnd env) (.basic .gexf) w).2 = false ∧
    (SoilExporter.hook c stamp now (.iterationEnd env) (.basic .gexf) w).1.disk.files =
      Dict.set w.disk.files ⟨c.outdir, env.id ++ ".gexf".toList⟩ ⟨env.graph, now⟩ := by
  simp [SoilExporter.hook, BasicExporter.hook, hc, ExportCtx.output, Disk.safeWrite, hb, mkdir_files]

theorem gexf_iters (c : ExportCtx) (hc : c.dump = true) (hb : c.backup = false) (stamp : Nat → Str) (now : Nat → Nat)
    (idOf : Nat → Str) (hid : ∀ a b, idOf a = idOf b → a = b) (graph : Nat → Str) (iterations : Nat) (w : ExportWorld) :
    let r := runHooks c stamp ((List.range iterations).map (fun j =>
      (now j, SoilExporter.basic .gexf, ExportHook.iterationEnd ⟨idOf j, [], [], graph j⟩))) w
    r.2 = false ∧
    (∀ j, j < iterations → (Dict.get? r.1.disk.files ⟨c.outdir, idOf j ++ ".gexf".toList⟩).map FileEntry.content = some (graph j)) ∧
    (∀ p, (∀ j, j < iterations → p ≠ ⟨c.outdir, idOf j ++ ".gexf".toList⟩) →
      Dict.get? r.1.disk.files p = Dict.get? w.disk.files p) := by
  induction iterations with
  | zero => simp [runHooks]
  | succ n ih =>
    obtain ⟨h1, h2, h3⟩ := ih
    intro r
    simp only [r, List.range_succ, List.map_append, List.map_cons, List.map_nil]
    rw [runHooks_append c stamp _ _ w h1]
    generalize runHooks c stamp ((List.range n).map (fun j =>
      (now j, SoilExporter.basic .gexf, ExportHook.iterationEnd ⟨idOf j, [], [], graph j⟩))) w = q at h1 h2 h3
    obtain ⟨g1, g2⟩ := gexf_call c hc hb stamp (now n) ⟨idOf n, [], [], graph n⟩ q.1
    simp only [runHooks, g1, Bool.false_eq_true, if_false]
    refine ⟨trivial, ?_, ?_⟩
    · intro j hj
      rw [g2, Dict.get?_set]
      by_cases hjn : j = n
      · subst hjn; simp
      · rw [if_neg (by simp only [FilePath.mk.injEq, true_and, List.append_cancel_right_eq]; intro e; exact hjn (hid _ _ e).symm)]
        exact h2 j (by omega)
    · intro p hp
      rw [g2, Dict.get?_set_ne _ _ (Ne.symm (hp n (by omega)))]
      exact h3 p (fun j hj => hp j (by omega))

/-- C74 is violated: with several combinations of parameters, only the graphs of the last one are kept; those of all the others
are overwritten, since the files are named after the iteration only. -/
theorem C74_gexf_overwritten_false (c : ExportCtx) (hc : c.dump = true) (hb : c.backup = false) (stamp : Nat → Str)
    (now : Nat → Nat) (idOf : Nat → Str) (hid : ∀ a b, idOf a = idOf b → a = b) (graph : Nat → Nat → Str)
    (combos iterations : Nat) (w : ExportWorld) (i j : Nat) (hi : i < combos) (_hj : j < iterations)
    (hdiff : ∀ j', j' < iterations → graph (combos - 1) j' ≠ graph i j)
    (hnew : ∀ p e, Dict.get? w.disk.files p = some e → e.content ≠ graph i j) :
    ∀ p e, Dict.get? (runHooks c stamp (simCalls (.basic .gexf) now idOf graph combos iterations) w).1.disk.files p = some e →
      e.content ≠ graph i j := by
  obtain ⟨k, rfl⟩ : ∃ k, combos = k + 1 := ⟨combos - 1, by omega⟩
  -- what holds after any number of combinations
  have hall : ∀ n, (runHooks c stamp (simCalls (.basic .gexf) now idOf graph n iterations) w).2 = false ∧
      ∀ p, (∀ j, j < iterations → p ≠ ⟨c.outdir, idOf j ++ ".gexf".toList⟩) →
        Dict.get? (runHooks c stamp (simCalls (.basic .gexf) now idOf graph n iterations) w).1.disk.files p =
          Dict.get? w.disk.files p := by
    intro n
    induction n with
    | zero => exact ⟨rfl, fun _ _ => rfl⟩
    | succ n ih =>
      simp only [simCalls, List.range_succ, List.flatMap_append, List.flatMap_cons, List.flatMap_nil, List.append_nil]
      simp only [simCalls] at ih
      rw [runHooks_append c stamp _ _ w ih.1]
      obtain ⟨g1, _, g3⟩ := gexf_iters c hc hb stamp (fun j => now (n * iterations + j)) idOf hid (graph n) iterations
        (runHooks c stamp ((List.range n).flatMap (fun i => (List.range iterations).map (fun j =>
          (now (i * iterations + j), SoilExporter.basic .gexf, ExportHook.iterationEnd ⟨idOf j, [], [], graph i j⟩)))) w).1
      exact ⟨g1, fun p hp => (g3 p hp).trans (ih.2 p hp)⟩
  intro p e hpe
  obtain ⟨h1, h2⟩ := hall k
  simp only [simCalls, List.range_succ, List.flatMap_append, List.flatMap_cons, List.flatMap_nil, List.append_nil] at hpe
  simp only [simCalls] at h1 h2
  rw [runHooks_append c stamp _ _ w h1] at hpe
  obtain ⟨_, g2, g3⟩ := gexf_iters c hc hb stamp (fun j => now (k * iterations + j)) idOf hid (graph k) iterations
    (runHooks c stamp ((List.range k).flatMap (fun i => (List.range iterations).map (fun j =>
      (now (i * iterations + j), SoilExporter.basic .gexf, ExportHook.iterationEnd ⟨idOf j, [], [], graph i j⟩)))) w).1
  by_cases hp : ∀ j, j < iterations → p ≠ ⟨c.outdir, idOf j ++ ".gexf".toList⟩
  · rw [g3 p hp, h2 p hp] at hpe
    exact hnew p e hpe
  · simp only [not_forall, not_not] at hp
    obtain ⟨j', hj', rfl⟩ := hp
    have := g2 j' hj'
    rw [hpe] at this
    simp only [Option.map_some, Option.some.injEq] at this
    rw [this]
    exact hdiff j' hj'

/-- C74, what holds: with one combination of parameters the graph of every iteration is in its file. -/
theorem C74_single_partial (c : ExportCtx) (hc : c.dump = true) (hb : c.backup = false) (stamp : Nat → Str)
    (now : Nat → Nat) (idOf : Nat → Str) (hid : ∀ a b, idOf a = idOf b → a = b) (graph : Nat → Nat → Str)
    (iterations : Nat) (w : ExportWorld) (j : Nat) (hj : j < iterations) :
    (Dict.get? (runHooks c stamp (simCalls (.basic .gexf) now idOf graph 1 iterations) w).1.disk.files
      ⟨c.outdir, idOf j ++ ".gexf".toList⟩).map FileEntry.content = some (graph 0 j) := by
  have := (gexf_iters c hc hb stamp (fun j => now (0 * iterations + j)) idOf hid (graph 0) iterations w).2.1 j hj
  simpa [simCalls] using this

/-- C74 for csv: exporting appends, so rows of an iteration never get lost: after any further calls the file begins with what it
had. -/
theorem C74_csv_partial (c : ExportCtx) (hc : c.dump = true) (stamp : Nat → Str) (calls : List (Nat × ExportEnv)) (w : ExportWorld)
    (p : FilePath) (e : FileEntry) (h : Dict.get? w.disk.files p = some e) :
    ∃ e', Dict.get? (runHooks c stamp (calls.map (fun ne => (ne.1, SoilExporter.basic .csv, ExportHook.iterationEnd ne.2))) w).1.disk.files p
      = some e' ∧ ∃ more, e'.content = e.content ++ more := by
  have hone : ∀ now f text (w : ExportWorld) (e : FileEntry), Dict.get? w.disk.files p = some e →
      ∃ e', Dict.get? (c.output stamp now f ['a'] text w).disk.files p = some e' ∧ ∃ more, e'.content = e.content ++ more := by
    intro now f text w e h
    have hf : (c.output stamp now f ['a'] text w).disk.files =
        Dict.set w.disk.files ⟨c.outdir, f⟩ ⟨w.disk.contentOf ⟨c.outdir, f⟩ ++ text, now⟩ := by
      simp [ExportCtx.output, hc, Disk.safeWrite, mkdir_files, Disk.contentOf]
    rw [hf, Dict.get?_set]
    split
    · rename_i hp
      subst hp
      exact ⟨_, rfl, text, by simp [Disk.contentOf, h]⟩
    · exact ⟨e, h, [], by simp⟩
  have hframes : ∀ now (id : Str) (l : List (Str × Str)) (w : ExportWorld) (e : FileEntry), Dict.get? w.disk.files p = some e →
      ∃ e', Dict.get? (l.foldl (fun w nf => c.output stamp now (id ++ '.' :: nf.1 ++ ".csv".toList) ['a'] nf.2 w) w).disk.files p
        = some e' ∧ ∃ more, e'.content = e.content ++ more := by
    intro now id l
    induction l with
    | nil => intro w e h; exact ⟨e, h, [], by simp⟩
    | cons x l ih =>
      intro w e h
      obtain ⟨e1, h1, m1, x1⟩ := hone now (id ++ '.' :: x.1 ++ ".csv".toList) x.2 w e h
      obtain ⟨e2, h2, m2, x2⟩ := ih _ e1 h1
      exact ⟨e2, h2, m1 ++ m2, by rw [x2, x1]; simp⟩
  induction calls generalizing w e with
  | nil => exact ⟨e, h, [], by simp⟩
  | cons x calls ih =>
    obtain ⟨e1, h1, m1, x1⟩ := hframes x.1 x.2.id x.2.frames w e h
    simp only [List.map_cons, runHooks, SoilExporter.hook, BasicExporter.hook, Bool.false_eq_true, if_false]
    obtain ⟨e2, h2, m2, x2⟩ := ih _ e1 h1
    exact ⟨e2, h2, m1 ++ m2, by rw [x2, x1]; simp⟩

example : (runHooks (exCtx true) exStamp [(1, .basic .gexf, .iterationEnd (exEnv "0" "first")),
      (2, .basic .gexf, .iterationEnd (exEnv "1" "second")), (3, .basic .gexf, .iterationEnd (exEnv "0" "third"))]
      ⟨⟨[], []⟩, []⟩).1.disk.files =
    [(⟨["out".toList], "0.gexf".toList⟩, ⟨"third".toList, 3⟩), (⟨["out".toList], "1.gexf".toList⟩, ⟨"second".toList, 2⟩)] := by
  decide +kernel

/-! ### C75: errors while writing -/

/-- C75 is violated: an `AttributeError` or `TypeError` of the block that writes a file is replaced by a `RuntimeError`. -/
theorem C75_replaced_false : openOrReuse false (some .attributeError) = some .runtimeError ∧
    openOrReuse false (some .typeError) = some .runtimeError := ⟨rfl, rfl⟩

/-- C75, what holds: other exceptions, and all exceptions in no-dump mode, reach the caller; a block that ends normally raises
nothing. -/
theorem C75_others_partial (reuse : Bool) (body : Option BlockExn)
    (h : reuse = true ∨ (body ≠ some .attributeError ∧ body ≠ some .typeError)) : openOrReuse reuse body = body := by
  rcases h with rfl | ⟨h1, h2⟩
  · rfl
  · cases reuse with
    | true => rfl
    | false =>
      unfold openOrReuse
      split
      · rename_i h; cases h
      · split
        · exact absurd rfl h1
        · exact absurd rfl h2
        · rfl

example : openOrReuse false (some (.other 3)) = some (.other 3) ∧ openOrReuse false none = none := by decide

/-! ### C76: exporters work -/

/-- C76 is violated: `graphdrawing` raises at the end of every iteration, and with it the simulation; whatever comes after is
not exported. -/
theorem C76_graphdrawing_false (c : ExportCtx) (stamp : Nat → Str) (now : Nat) (env : ExportEnv)
    (rest : List (Nat × SoilExporter × ExportHook)) (w : ExportWorld) :
    runHooks c stamp ((now, .basic .graphdrawing, .iterationEnd env) :: rest) w = (w, true) := by
  simp [runHooks, SoilExporter.hook, BasicExporter.hook]

/-- C76 is violated: the exporter `SQLite` alone raises at the start when its directory does not exist yet. -/
theorem C76_sqlite_false (c : ExportCtx) (hc : c.dump = true) (stamp : Nat → Str) (now : Nat)
    (rest : List (Nat × SoilExporter × ExportHook)) (w : ExportWorld) (hdir : c.outdir ∉ w.disk.dirs)
    (hfile : Dict.get? w.disk.files c.dbPath = none) :
    (runHooks c stamp ((now, .basic .sqlite, .simStart) :: rest) w).2 = true := by
  have h1 : w.disk.tryBackup stamp now c.dbPath true = w.disk := by simp [Disk.tryBackup, hfile]
  have h2 : (w.disk.dbStart stamp now c.dbPath c.backup c.overwrite c.configRow).2 = true := by
    simp only [Disk.dbStart, h1, ite_self]
    have hd : c.dbPath.dir ∉ w.disk.dirs := hdir
    cases c.overwrite <;> simp [Disk.dbAppend, hd]
  have h3 : (SoilExporter.hook c stamp now .simStart (.basic .sqlite) w).2 = true := by
    simp [SoilExporter.hook, BasicExporter.hook, hc, h2]
  simp [runHooks, h3]

/-- The exporters that never fail. -/
def BasicExporter.safe : BasicExporter → Bool
  | .graphdrawing => false
  | .sqlite => false
  | _ => true

/-- C76, what holds: any sequence of calls of the other exporters and of `default` (which writes the YAML file first and
thereby creates the directory) ends without exception, if `default` is called first at the start. -/
theorem C76_others_partial (c : ExportCtx) (stamp : Nat → Str) (calls : List (Nat × SoilExporter × ExportHook)) (now : Nat)
    (h : ∀ x ∈ calls, (∃ b, x.2.1 = .basic b ∧ b.safe = true) ∨ x.2.1 = .default [.yaml, .sqlite]) (w : ExportWorld) :
    (runHooks c stamp ((now, .default [.yaml, .sqlite], .simStart) :: calls) w).2 = false := by
  -- directories never disappear
  have hmk : ∀ (d : Disk) dir x, x ∈ d.dirs → x ∈ (d.mkdir dir).dirs := by
    intro d dir x hx; unfold Disk.mkdir; split
    · exact hx
    · exact List.mem_cons_of_mem _ hx
  have hbk : ∀ now p rm (d : Disk) x, x ∈ d.dirs → x ∈ (d.tryBackup stamp now p rm).dirs := by
    intro now p rm d x hx; unfold Disk.tryBackup
    split
    · exact hx
    · exact hmk _ _ _ hx
  have hsw : ∀ now p mode b text (d : Disk) x, x ∈ d.dirs → x ∈ (d.safeWrite stamp now p mode b text).dirs := by
    intro now p mode b text d x hx
    simp only [Disk.safeWrite]
    split
    · exact hbk _ _ _ _ _ (hmk _ _ _ hx)
    · exact hmk _ _ _ hx
  have hdb : ∀ now p rows (d : Disk) x, x ∈ d.dirs → x ∈ (d.dbAppend now p rows).1.dirs := by
    intro now p rows d x hx
    unfold Disk.dbAppend; split <;> exact hx
  have hds : ∀ now p b o rows (d : Disk) x, x ∈ d.dirs → x ∈ (d.dbStart stamp now p b o rows).1.dirs := by
    intro now p b o rows d x hx
    simp only [Disk.dbStart]
    apply hdb
    cases o <;> cases b <;> simp only [if_true, Bool.false_eq_true, if_false]
    · exact hx
    · exact hbk _ _ _ _ _ hx
    · exact hx
    · exact hbk _ _ _ _ _ hx
  have hout : ∀ now f mode text (w : ExportWorld) x, x ∈ w.disk.dirs → x ∈ (c.output stamp now f mode text w).disk.dirs := by
    intro now f mode text w x hx
    unfold ExportCtx.output; split
    · exact hsw _ _ _ _ _ _ _ hx
    · exact hx
  have hbasic : ∀ now (b : BasicExporter) hk (w : ExportWorld), c.outdir ∈ w.disk.dirs ∨ c.dump = false →
      c.outdir ∈ (b.hook c stamp now hk w).1.disk.dirs ∨ c.dump = false := by
    intro now b hk w hw
    rcases hw with hw | hw
    · left
      cases b <;> cases hk <;> simp only [BasicExporter.hook]
      all_goals (try exact hw)
      all_goals (try exact hout _ _ _ _ _ _ hw)
      all_goals (try (split <;> [exact hout _ _ _ _ _ _ hw; exact hw]))
      · split
        · exact hds _ _ _ _ _ _ _ hw
        · exact hw
      · split
        · exact hdb _ _ _ _ _ hw
        · exact hw
      · rename_i env
        generalize env.frames = l
        induction l generalizing w with
        | nil => exact hw
        | cons x l ih => exact ih _ (hout _ _ _ _ _ _ hw)
    · exact Or.inr hw
  have hsql : ∀ now hk (w : ExportWorld), c.outdir ∈ w.disk.dirs ∨ c.dump = false →
      (BasicExporter.hook c stamp now .sqlite hk w).2 = false := by
    intro now hk w hw
    rcases hw with hw | hw
    · cases hk <;> simp only [BasicExporter.hook]
      · split
        · simp only [Disk.dbStart]
          unfold Disk.dbAppend
          rw [if_pos]
          have : c.dbPath.dir = c.outdir := rfl
          rw [this]
          cases c.overwrite <;> cases c.backup <;> simp only [if_true, Bool.false_eq_true, if_false]
          · exact hw
          · exact hbk _ _ _ _ _ hw
          · exact hw
          · exact hbk _ _ _ _ _ hw
        · rfl
      · split
        · unfold Disk.dbAppend
          rw [if_pos]
          exact hw
        · rfl
    · cases hk <;> simp [BasicExporter.hook, hw]
  have hsafe : ∀ now (b : BasicExporter) hk (w : ExportWorld), b.safe = true → (b.hook c stamp now hk w).2 = false := by
    intro now b hk w hb
    cases b <;> cases hk <;> first | (cases hb; done) | rfl | (simp only [BasicExporter.hook]; split <;> rfl)
  have hrun : ∀ (calls : List (Nat × SoilExporter × ExportHook)) (w : ExportWorld),
      (∀ x ∈ calls, (∃ b, x.2.1 = .basic b ∧ b.safe = true) ∨ x.2.1 = .default [.yaml, .sqlite]) →
      (c.outdir ∈ w.disk.dirs ∨ c.dump = false) → (runHooks c stamp calls w).2 = false := by
    intro calls
    induction calls with
    | nil => intro w _ _; rfl
    | cons x calls ih =>
      obtain ⟨now, e, hk⟩ := x
      intro w hx hw
      have hone : (e.hook c stamp now hk w).2 = false ∧
          (c.outdir ∈ (e.hook c stamp now hk w).1.disk.dirs ∨ c.dump = false) := by
        rcases hx (now, e, hk) (by simp) with ⟨b, he, hb⟩ | he
        · change e = _ at he
          subst he
          exact ⟨hsafe now b hk w hb, hbasic now b hk w hw⟩
        · change e = _ at he
          subst he
          simp only [SoilExporter.hook]
          split
          · exact ⟨rfl, hw⟩
          · have h1 := hsafe now .yaml hk w rfl
            have h2 := hbasic now .yaml hk w hw
            have h3 := hsql now hk _ h2
            have h4 := hbasic now .sqlite hk _ h2
            simp only [hookAll, h1, h3, Bool.false_eq_true, if_false]
            exact ⟨trivial, h4⟩
      simp only [runHooks, hone.1, Bool.false_eq_true, if_false]
      exact ih _ (fun x hx' => hx x (by simp [hx'])) hone.2
  -- the first call creates the directory
  have hy : c.outdir ∈ (BasicExporter.hook c stamp now .yaml .simStart w).1.disk.dirs ∨ c.dump = false := by
    cases hd : c.dump with
    | false => exact Or.inr rfl
    | true =>
      left
      simp only [BasicExporter.hook, hd, if_true, ExportCtx.output, Disk.safeWrite]
      have : c.outdir ∈ (w.disk.mkdir c.outdir).dirs := by
        unfold Disk.mkdir; split
        · assumption
        · simp
      split
      · exact hbk _ _ _ _ _ this
      · exact this
  have h1 := hsafe now .yaml .simStart w rfl
  have h3 := hsql now .simStart _ hy
  have h4 := hbasic now .sqlite .simStart _ hy
  have hne : ¬ (ExportHook.simStart = ExportHook.iterationStart) := by simp
  simp only [runHooks, SoilExporter.hook, if_neg hne, hookAll, h1, h3, Bool.false_eq_true, if_false]
  exact hrun calls _ h h4

example : (runHooks (exCtx true) exStamp (exCalls (.basic .sqlite)) ⟨⟨[], []⟩, []⟩).2 = true ∧
    (runHooks (exCtx true) exStamp (exCalls (.basic .graphdrawing)) ⟨⟨[], []⟩, []⟩).2 = true ∧
    (runHooks (exCtx true) exStamp (exCalls (.default [.yaml, .sqlite])) ⟨⟨[], []⟩, []⟩).2 = false := by decide +kernel

/-! ### C63 for the exporters -/

theorem runFiles_append (stamp : Nat → Str) (a b : List (Nat × FileOp)) (d : Disk) :
    runFiles stamp (a ++ b) d = runFiles stamp b (runFiles stamp a d) := by
  induction a generalizing d with
  | nil => rfl
  | cons x a ih => exact ih _

/-- One call of an exporter, with backups, is a sequence of operations on files in the directory of the simulation: at most one,
except for csv, which only appends. -/
theorem basic_ops (c : ExportCtx) (hc : c.dump = true) (hb : c.backup = true) (stamp : Nat → Str) (now : Nat) (b : BasicExporter)
    (h : ExportHook) (w : ExportWorld) :
    ∃ ops : List (Nat × FileOp), (b.hook c stamp now h w).1.disk = runFiles stamp ops w.disk ∧
      (∀ x ∈ ops, x.1 = now ∧ x.2.path.dir = c.outdir) ∧
      (ops.length ≤ 1 ∨ ∀ x ∈ ops, ∃ f text, x.2 = .write f ['a'] text) := by
  have hout : ∀ f mode text w, (c.output stamp now f mode text w).disk =
      runFiles stamp [(now, .write ⟨c.outdir, f⟩ mode text)] w.disk := by
    intro f mode text w
    simp [ExportCtx.output, hc, runFiles, FileOp.exec, hb]
  have none_ : ∃ ops : List (Nat × FileOp), w.disk = runFiles stamp ops w.disk ∧
      (∀ x ∈ ops, x.1 = now ∧ x.2.path.dir = c.outdir) ∧
      (ops.length ≤ 1 ∨ ∀ x ∈ ops, ∃ f text, x.2 = .write f ['a'] text) := ⟨[], rfl, by simp, by simp⟩
  have one : ∀ f mode text, ∃ ops : List (Nat × FileOp), (c.output stamp now f mode text w).disk = runFiles stamp ops w.disk ∧
      (∀ x ∈ ops, x.1 = now ∧ x.2.path.dir = c.outdir) ∧
      (ops.length ≤ 1 ∨ ∀ x ∈ ops, ∃ f text, x.2 = .write f ['a'] text) :=
    fun f mode text => ⟨[(now, .write ⟨c.outdir, f⟩ mode text)], hout f mode text w, by simp [FileOp.path], Or.inl (by simp)⟩
  cases b <;> cases h <;> simp only [BasicExporter.hook, hc, if_true] <;> first | exact none_ | exact one _ _ _ | skip
  · exact ⟨[(now, .dbStart c.dbPath c.overwrite c.configRow)], by simp [runFiles, FileOp.exec, hb],
      by simp [FileOp.path, ExportCtx.dbPath], Or.inl (by simp)⟩
  · rename_i env
    exact ⟨[(now, .dbAppend c.dbPath (env.paramRows ++ env.frames.flatMap Prod.snd))], by simp [runFiles, FileOp.exec],
      by simp [FileOp.path, ExportCtx.dbPath], Or.inl (by simp)⟩
  · rename_i env
    have hf : ∀ (fs : List (Str × Str)) (w : ExportWorld), ∃ ops : List (Nat × FileOp),
        (fs.foldl (fun w nf => c.output stamp now (env.id ++ '.' :: nf.1 ++ ".csv".toList) ['a'] nf.2 w) w).disk =
          runFiles stamp ops w.disk ∧ (∀ x ∈ ops, x.1 = now ∧ x.2.path.dir = c.outdir) ∧
        ∀ x ∈ ops, ∃ f text, x.2 = .write f ['a'] text := by
      intro fs
      induction fs with
      | nil => exact fun w => ⟨[], rfl, by simp, by simp⟩
      | cons f fs ih =>
        intro w
        obtain ⟨ops, h1, h2, h3⟩ := ih (c.output stamp now (env.id ++ '.' :: f.1 ++ ".csv".toList) ['a'] f.2 w)
        refine ⟨(now, .write ⟨c.outdir, env.id ++ '.' :: f.1 ++ ".csv".toList⟩ ['a'] f.2) :: ops, ?_, ?_, ?_⟩
        · rw [List.foldl_cons, h1, hout]; rfl
        · intro x hx
          rcases List.mem_cons.1 hx with rfl | hx
          · exact ⟨rfl, rfl⟩
          · exact h2 x hx
        · intro x hx
          rcases List.mem_cons.1 hx with rfl | hx
          · exact ⟨_, _, rfl⟩
          · exact h3 x hx
    obtain ⟨ops, h1, h2, h3⟩ := hf env.frames w
    exact ⟨ops, h1, h2, Or.inr h3⟩

/-- C63 for exporters: with backups, whatever the exporters of soil do to the disk is a history of operations as in
`C63_history_partial`, on files in the directory of the simulation, at the times of the calls. -/
theorem C63_exporters (c : ExportCtx) (hc : c.dump = true) (hb : c.backup = true) (stamp : Nat → Str)
    (calls : List (Nat × SoilExporter × ExportHook)) (w : ExportWorld) :
    ∃ ops : List (Nat × FileOp), (runHooks c stamp calls w).1.disk = runFiles stamp ops w.disk ∧
      ∀ x ∈ ops, (∃ call ∈ calls, x.1 = call.1) ∧ x.2.path.dir = c.outdir := by
  have hall : ∀ now h (es : List BasicExporter) (w : ExportWorld), ∃ ops : List (Nat × FileOp),
      (hookAll c stamp now h es w).1.disk = runFiles stamp ops w.disk ∧ ∀ x ∈ ops, x.1 = now ∧ x.2.path.dir = c.outdir := by
    intro now h es
    induction es with
    | nil => exact fun w => ⟨[], rfl, by simp⟩
    | cons e es ih =>
      intro w
      obtain ⟨ops, h1, h2, _⟩ := basic_ops c hc hb stamp now e h w
      simp only [hookAll]
      split
      · exact ⟨ops, h1, h2⟩
      · obtain ⟨ops', h1', h2'⟩ := ih (e.hook c stamp now h w).1
        refine ⟨ops ++ ops', by rw [h1', h1, runFiles_append], ?_⟩
        intro x hx
        rcases List.mem_append.1 hx with hx | hx
        · exact h2 x hx
        · exact h2' x hx
  have hone : ∀ now h (e : SoilExporter) (w : ExportWorld), ∃ ops : List (Nat × FileOp),
      (e.hook c stamp now h w).1.disk = runFiles stamp ops w.disk ∧ ∀ x ∈ ops, x.1 = now ∧ x.2.path.dir = c.outdir := by
    intro now h e w
    cases e with
    | basic b =>
      obtain ⟨ops, h1, h2, _⟩ := basic_ops c hc hb stamp now b h w
      exact ⟨ops, h1, h2⟩
    | default inner =>
      simp only [SoilExporter.hook]
      split
      · exact ⟨[], rfl, by simp⟩
      · exact hall now h inner w
  induction calls generalizing w with
  | nil => exact ⟨[], rfl, by simp⟩
  | cons x calls ih =>
    obtain ⟨now, e, h⟩ := x
    obtain ⟨ops, h1, h2⟩ := hone now h e w
    simp only [runHooks]
    split
    · exact ⟨ops, h1, fun x hx => ⟨⟨_, List.mem_cons_self .., (h2 x hx).1⟩, (h2 x hx).2⟩⟩
    · obtain ⟨ops', h1', h2'⟩ := ih (e.hook c stamp now h w).1
      refine ⟨ops ++ ops', by rw [h1', h1, runFiles_append], ?_⟩
      intro x hx
      rcases List.mem_append.1 hx with hx | hx
      · exact ⟨⟨_, List.mem_cons_self .., (h2 x hx).1⟩, (h2 x hx).2⟩
      · obtain ⟨⟨call, hcall, ht⟩, hd⟩ := h2' x hx
        exact ⟨⟨call, List.mem_cons_of_mem _ hcall, ht⟩, hd⟩

/-- C63 for one call of an exporter: every file in the directory of the simulation is still there, possibly longer, or its contents
are in the backup named after its `ctime`. -/
theorem C63_exporter_call (c : ExportCtx) (hc : c.dump = true) (hb : c.backup = true) (stamp : Nat → Str) (now : Nat)
    (b : BasicExporter) (h : ExportHook) (w : ExportWorld) (hwf : Dict.WF w.disk.files) (p : FilePath) (e : FileEntry)
    (hp : p.dir.getLast? ≠ some "backup".toList) (he : Dict.get? w.disk.files p = some e) :
    ∃ r e', Dict.get? (b.hook c stamp now h w).1.disk.files r = some e' ∧ (∃ more, e'.content = e.content ++ more) ∧
      (r = p ∨ r = ⟨p.dir ++ ["backup".toList], p.base ++ '@' :: stamp e.ctime⟩) := by
  obtain ⟨ops, h1, h2, h3⟩ := basic_ops c hc hb stamp now b h w
  clear h2
  rw [h1]
  rcases h3 with h3 | h3
  · match ops, h3 with
    | [], _ => exact ⟨p, e, he, ⟨[], by simp⟩, Or.inl rfl⟩
    | [(t, op)], _ =>
      simp only [runFiles]
      by_cases hop : op.path = p
      · obtain ⟨r, e', h1, h2, h3⟩ := C63_previous_kept stamp t op w.disk hwf e (by rw [hop]; exact he)
        rw [hop] at h3
        exact ⟨r, e', h1, h2, h3⟩
      · refine ⟨p, e, ?_, ⟨[], by simp⟩, Or.inl rfl⟩
        rw [(fileOp_effect stamp t op w.disk hwf).2.1 p (Ne.symm hop) ?_]
        · exact he
        · rintro e1 _ rfl
          exact hp (by simp [backupPath, backupName])
  · clear h1
    suffices hs : ∀ (d : Disk) (e : FileEntry), Dict.get? d.files p = some e →
        ∃ e', Dict.get? (runFiles stamp ops d).files p = some e' ∧ ∃ more, e'.content = e.content ++ more by
      obtain ⟨e', h1, h2⟩ := hs w.disk e he
      exact ⟨p, e', h1, h2, Or.inl rfl⟩
    clear he
    induction ops with
    | nil => exact fun d e he => ⟨e, he, [], by simp⟩
    | cons x ops ih =>
      obtain ⟨t, op⟩ := x
      intro d e he
      obtain ⟨f, text, rfl⟩ : ∃ f text, op = .write f ['a'] text := h3 (t, op) (by simp)
      have hf : ((FileOp.write f ['a'] text).exec stamp t d).files = Dict.set d.files f ⟨d.contentOf f ++ text, t⟩ := by
        simp [FileOp.exec, Disk.safeWrite, mkdir_files, Disk.contentOf]
      simp only [runFiles]
      by_cases hpf : f = p
      · subst hpf
        obtain ⟨e', h1, more, h2⟩ := ih (fun x hx => h3 x (by simp [hx])) ((FileOp.write f ['a'] text).exec stamp t d)
          ⟨d.contentOf f ++ text, t⟩ (by rw [hf]; simp)
        refine ⟨e', h1, text ++ more, ?_⟩
        rw [h2]
        simp [Disk.contentOf, he]
      · exact ih (fun x hx => h3 x (by simp [hx])) _ e (by rw [hf, Dict.get?_set_ne _ _ hpf]; exact he)

/-- C74 is violated by the exporter `dummy`: without backups, only the line of the last iteration is left when it has ended. -/
theorem C74_dummy_false (c : ExportCtx) (hc : c.dump = true) (hb : c.backup = false) (stamp : Nat → Str)
    (calls : List (Nat × ExportEnv)) (now : Nat) (env : ExportEnv) (w : ExportWorld) :
    (Dict.get? (runHooks c stamp ((calls ++ [(now, env)]).map
      (fun ne => (ne.1, SoilExporter.basic .dummy, ExportHook.iterationEnd ne.2))) w).1.disk.files ⟨c.outdir, "dummy".toList⟩).map
        FileEntry.content = some ("iteration ended@ " ++ toString now ++ "\n").toList := by
  induction calls generalizing w with
  | nil =>
    simp [runHooks, SoilExporter.hook, BasicExporter.hook, ExportCtx.output, hc, hb, Disk.safeWrite]
  | cons x calls ih =>
    simp only [List.cons_append, List.map_cons, runHooks, SoilExporter.hook, BasicExporter.hook, Bool.false_eq_true, if_false]
    exact ih _

/-- C74 for databases: the rows of all iterations are there, in the order of the iterations, after what was there before. -/
theorem C74_sqlite_partial (c : ExportCtx) (hc : c.dump = true) (stamp : Nat → Str) (calls : List (Nat × ExportEnv)) (w : ExportWorld)
    (hdir : c.outdir ∈ w.disk.dirs) (e : FileEntry) (he : Dict.get? w.disk.files c.dbPath = some e) :
    let r := runHooks c stamp (calls.map (fun ne => (ne.1, SoilExporter.basic .sqlite, ExportHook.iterationEnd ne.2))) w
    r.2 = false ∧ ∃ e', Dict.get? r.1.disk.files c.dbPath = some e' ∧
      e'.content = e.content ++ calls.flatMap (fun ne => ne.2.paramRows ++ ne.2.frames.flatMap Prod.snd) := by
  induction calls generalizing w e with
  | nil => exact ⟨rfl, e, he, by simp⟩
  | cons x calls ih =>
    obtain ⟨now, env⟩ := x
    have hd : c.dbPath.dir ∈ w.disk.dirs := hdir
    have hstep : w.disk.dbAppend now c.dbPath (env.paramRows ++ env.frames.flatMap Prod.snd) =
        ({ w.disk with files := Dict.set w.disk.files c.dbPath ⟨e.content ++ (env.paramRows ++ env.frames.flatMap Prod.snd), now⟩ }, false) := by
      unfold Disk.dbAppend
      rw [if_pos hd]
      simp [Disk.contentOf, he]
    intro r
    simp only [r, List.map_cons, runHooks, SoilExporter.hook, BasicExporter.hook, hc, if_true, hstep, Bool.false_eq_true, if_false]
    obtain ⟨h1, e', h2, h3⟩ := ih { w with disk := { w.disk with
      files := Dict.set w.disk.files c.dbPath ⟨e.content ++ (env.paramRows ++ env.frames.flatMap Prod.snd), now⟩ } } hdir
      ⟨e.content ++ (env.paramRows ++ env.frames.flatMap Prod.snd), now⟩ (by simp)
    exact ⟨h1, e', h2, by rw [h3]; simp⟩

end Verif
