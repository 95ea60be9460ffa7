import Mathlib.Data.List.Basic
import Mathlib.Data.List.Nodup
import Verif.Model.DownloadConc
import Verif.Props.Download

/-!
# Property C97: several processes downloading at the same time
-/

set_option linter.unusedSectionVars false

namespace Ranx
open Dl

variable {ι β : Type*}

/-- the server holds `c id`, reports its length, and honours Range -/
def Spec.Hosts (c : ι → List β) (sv : Server ι β) : Prop :=
  ∀ id, sv.head id = some (c id).length ∧ sv.body id none = c id ∧ ∀ n, sv.body id (some n) = (c id).drop n

/-- a call that has found no final file and has neither renamed its own nor been stopped -/
def Spec.Busy : Pc β → Prop
  | .start | .load | .loaded _ | .failed _ | .killed => False
  | _ => True

/-- no call begins while another one is busy with the same id, unless the final file already exists -/
def Spec.Exclusive [DecidableEq ι] (zero : β) (sv : Server ι β) (w : World ι β) : List Event → Prop
  | [] => True
  | e :: es =>
    (∀ (k n : Nat) (p : Proc ι β), e = .go k n → w.procs[k]? = some p → p.pc = .start →
      (w.fs.entry (.dst p.id)).isSome ∨ ∀ q ∈ w.procs, q.id = p.id → ¬ Spec.Busy q.pc) ∧
    Spec.Exclusive zero sv (w.event zero sv e) es

/-- the files of different paths are different; the final files are complete, the temporary files are
beginnings -/
structure Spec.GoodFS (c : ι → List β) (fs : FS ι β) : Prop where
  inj : ∀ a b i, fs.entry a = some i → fs.entry b = some i → a = b
  bound : ∀ a i, fs.entry a = some i → i < fs.next
  dst : ∀ x i, fs.entry (.dst x) = some i → fs.file i = c x
  tmp : ∀ x i, fs.entry (.tmp x) = some i → fs.file i <+: c x

/-- how much of `x` is in the temporary file -/
def tmpOf (fs : FS ι β) (x : ι) : List β :=
  match fs.entry (.tmp x) with
  | none => []
  | some i => fs.file i

/-- what holds of a call at each place -/
def PcOk (c : ι → List β) (fs : FS ι β) (x : ι) : Pc β → Prop
  | .start => True
  | .head => fs.entry (.dst x) = none
  | .probe n => fs.entry (.dst x) = none ∧ n = (c x).length
  | .stat n => fs.entry (.dst x) = none ∧ n = (c x).length ∧ (fs.entry (.tmp x)).isSome
  | .get r => fs.entry (.dst x) = none ∧ r = (tmpOf fs x).length
  | .fopen r body => fs.entry (.dst x) = none ∧ r = (tmpOf fs x).length ∧ body = (c x).drop r
  | .copying i pos rest => fs.entry (.dst x) = none ∧ fs.entry (.tmp x) = some i ∧
      rest = (c x).drop (fs.file i).length ∧ (pos = none ∨ pos = some (fs.file i).length)
  | .rename => fs.entry (.dst x) = none ∧ ∃ i, fs.entry (.tmp x) = some i ∧ fs.file i = c x
  | .load => (fs.entry (.dst x)).isSome
  | .loaded f => f = c x
  | .failed _ => False
  | .killed => True

structure WorldOk (c : ι → List β) (w : World ι β) : Prop where
  fs : Spec.GoodFS c w.fs
  pc : ∀ (k : Nat) (p : Proc ι β), w.procs[k]? = some p → PcOk c w.fs p.id p.pc
  uniq : ∀ (j k : Nat) (p q : Proc ι β), w.procs[j]? = some p → w.procs[k]? = some q → p.id = q.id →
    Spec.Busy p.pc → Spec.Busy q.pc → j = k

/-- the two file systems agree about the files of `x` -/
def SameFor (fs fs' : FS ι β) (x : ι) : Prop :=
  fs'.entry (.tmp x) = fs.entry (.tmp x) ∧ fs'.entry (.dst x) = fs.entry (.dst x) ∧
    ∀ i, (fs.entry (.tmp x) = some i ∨ fs.entry (.dst x) = some i) → fs'.file i = fs.file i

theorem SameFor.refl (fs : FS ι β) (x : ι) : SameFor fs fs x := ⟨rfl, rfl, fun _ _ => rfl⟩

theorem tmpOfsame {fs fs' : FS ι β} {x : ι} (h : SameFor fs fs' x) : tmpOf fs' x = tmpOf fs x := by
  unfold tmpOf
  rw [h.1]
  cases he : fs.entry (.tmp x) with
  | none => rfl
  | some i => exact h.2.2 i (.inl he)

theorem pcOk_same {c : ι → List β} {fs fs' : FS ι β} {x : ι} (h : SameFor fs fs' x) {pc : Pc β}
    (hp : PcOk c fs x pc) : PcOk c fs' x pc := by
  obtain ⟨h1, h2, h3⟩ := h
  cases pc with
  | start => trivial
  | head => exact h2.trans hp
  | probe n => exact ⟨h2.trans hp.1, hp.2⟩
  | stat n => exact ⟨h2.trans hp.1, hp.2.1, by rw [h1]; exact hp.2.2⟩
  | get r => exact ⟨h2.trans hp.1, by rw [tmpOfsame ⟨h1, h2, h3⟩]; exact hp.2⟩
  | fopen r b => exact ⟨h2.trans hp.1, by rw [tmpOfsame ⟨h1, h2, h3⟩]; exact hp.2.1, hp.2.2⟩
  | copying i pos rest =>
    refine ⟨h2.trans hp.1, h1.trans hp.2.1, ?_⟩
    rw [h3 i (.inl hp.2.1)]
    exact hp.2.2
  | rename =>
    obtain ⟨hd, i, hi, hf⟩ := hp
    exact ⟨h2.trans hd, i, h1.trans hi, (h3 i (.inl hi)).trans hf⟩
  | load => show (fs'.entry (.dst x)).isSome; rw [h2]; exact hp
  | loaded f => exact hp
  | failed e => exact hp
  | killed => trivial

/-- what remains to be done, in steps -/
def todo (len : Nat) : Pc β → Nat
  | .start => len + 9
  | .head => len + 8
  | .probe _ => len + 7
  | .stat _ => len + 6
  | .get _ => len + 5
  | .fopen _ b => b.length + 4
  | .copying _ _ rest => rest.length + 3
  | .rename => 2
  | .load => 1
  | _ => 0

variable [DecidableEq ι] (zero : β) (sv : Server ι β)

theorem pwrite_end (f b : List β) : pwrite zero f f.length b = f ++ b := by
  simp [pwrite]

theorem drop_take_prefix {c f : List β} (h : f <+: c) (n : Nat) :
    f ++ (c.drop f.length).take n <+: c ∧
      ((c.drop f.length).drop n) = c.drop (f ++ (c.drop f.length).take n).length := by
  obtain ⟨t, rfl⟩ := h
  simp only [List.drop_left]
  refine ⟨(List.prefix_append_right_inj _).2 (List.take_prefix _ _), ?_⟩
  rw [List.length_append, ← List.drop_drop, List.drop_left, List.length_take]
  by_cases hn : n ≤ t.length
  · rw [Nat.min_eq_left hn]
  · rw [Nat.min_eq_right (by omega), List.drop_eq_nil_of_le (by omega), List.drop_eq_nil_of_le (Nat.le_refl _)]

/-- what one step of a call for `x` does -/
def StepOk (c : ι → List β) (fs : FS ι β) (x : ι) (pc : Pc β) (n : Nat) (r : FS ι β × Pc β) : Prop :=
  Spec.GoodFS c r.1 ∧ PcOk c r.1 x r.2 ∧ (∀ y, y ≠ x → SameFor fs r.1 y) ∧
    (∀ y, (fs.entry (.dst y)).isSome → (r.1.entry (.dst y)).isSome) ∧
    (∀ y i, fs.entry (.dst y) = some i → r.1.entry (.dst y) = some i ∧ r.1.file i = fs.file i) ∧
    (Spec.Busy r.2 → Spec.Busy pc ∨ pc = .start ∧ fs.entry (.dst x) = none) ∧
    (1 ≤ n → todo (c x).length r.2 ≤ todo (c x).length pc - 1) ∧
    (pc ≠ .killed → r.2 ≠ .killed) ∧ (¬ Spec.Busy pc → r.1 = fs)

/-- one step of one call -/
theorem step_ok {c : ι → List β} (hs : Spec.Hosts c sv) {fs : FS ι β} (hf : Spec.GoodFS c fs) (x : ι)
    {pc : Pc β} (hp : PcOk c fs x pc) (n : Nat) : StepOk c fs x pc n (step zero sv n fs x pc) := by
  have triv : ∀ pc', PcOk c fs x pc' → (Spec.Busy pc' → Spec.Busy pc ∨ pc = .start ∧ fs.entry (.dst x) = none) →
      todo (c x).length pc' ≤ todo (c x).length pc - 1 → (pc ≠ .killed → pc' ≠ .killed) →
      StepOk c fs x pc n (fs, pc') :=
    fun pc' h1 h2 h3 h4 => ⟨hf, h1, fun y _ => .refl _ _, fun _ h => h, fun _ _ h => ⟨h, rfl⟩, h2, fun _ => h3, h4,
      fun _ => rfl⟩
  cases pc with
  | start =>
    simp only [step]
    by_cases h : (fs.entry (.dst x)).isSome = true
    · rw [if_pos h]
      exact triv .load h (fun hb => hb.elim) (by simp [todo]) (fun _ h => by cases h)
    · rw [if_neg h]
      have hn : fs.entry (.dst x) = none := by simpa using h
      exact triv .head hn (fun _ => .inr ⟨rfl, hn⟩) (by simp [todo]) (fun _ h => by cases h)
  | head =>
    simp only [step]
    exact triv (.probe ((sv.head x).getD 0)) ⟨hp, by rw [(hs x).1]; rfl⟩ (fun _ => .inl trivial) (by simp [todo]) (fun _ h => by cases h)
  | probe m =>
    simp only [step]
    by_cases h : (fs.entry (.tmp x)).isSome = true
    · rw [if_pos h]
      exact triv (.stat m) ⟨hp.1, hp.2, h⟩ (fun _ => .inl trivial) (by simp [todo]) (fun _ h => by cases h)
    · rw [if_neg h]
      have hn : fs.entry (.tmp x) = none := by simpa using h
      exact triv (.get 0) ⟨hp.1, by simp [tmpOf, hn]⟩ (fun _ => .inl trivial) (by simp [todo]) (fun _ h => by cases h)
  | stat m =>
    obtain ⟨hd, hm, ht⟩ := hp
    obtain ⟨i, hi⟩ := Option.isSome_iff_exists.1 ht
    simp only [step, hi]
    by_cases h : m ≠ (fs.file i).length
    · rw [if_pos h]
      exact triv (.get (fs.file i).length) ⟨hd, by simp [tmpOf, hi]⟩ (fun _ => .inl trivial) (by simp [todo]) (fun _ h => by cases h)
    · rw [if_neg h]
      have he : fs.file i = c x := (hf.tmp x i hi).eq_of_length (by omega)
      exact triv .rename ⟨hd, i, hi, he⟩ (fun _ => .inl trivial) (by simp [todo]) (fun _ h => by cases h)
  | get r =>
    have hb : sv.body x (if r ≠ 0 then some r else none) = (c x).drop r := by
      by_cases h : r ≠ 0
      · rw [if_pos h]; exact (hs x).2.2 r
      · rw [if_neg h, not_not.1 h]; exact (hs x).2.1
    simp only [step]
    rw [hb]
    exact triv (.fopen r ((c x).drop r)) ⟨hp.1, hp.2, rfl⟩ (fun _ => .inl trivial) (by simp only [todo, List.length_drop]; omega)
      (fun _ h => by cases h)
  | fopen r body =>
    obtain ⟨hd, hr, hbody⟩ := hp
    simp only [step]
    cases hi : fs.entry (.tmp x) with
    | some i =>
      have hh : tmpOf fs x = fs.file i := by simp [tmpOf, hi]
      rw [hh] at hr
      have hne : ∀ a j, fs.entry a = some j → a ≠ .tmp x → j ≠ i := by
        rintro a j ha hat rfl
        exact hat (hf.inj _ _ _ ha hi)
      by_cases h : r ≠ 0
      · simp only [openTmp, hi, if_pos h]
        exact triv (.copying i none body) ⟨hd, hi, by rw [← hr]; exact hbody, .inl rfl⟩ (fun _ => .inl trivial)
          (by simp [todo]) (fun _ h => by cases h)
      · simp only [openTmp, hi, if_neg h]
        rw [not_not] at h
        subst h
        have hnil : fs.file i = [] := List.length_eq_zero_iff.1 hr.symm
        have hupd : Function.update fs.file i [] = fs.file := by
          funext j
          by_cases hj : j = i
          · subst hj; rw [Function.update_self, hnil]
          · rw [Function.update_of_ne hj]
        rw [hupd]
        exact triv (.copying i (some 0) body) ⟨hd, hi, by rw [hnil]; exact hbody, .inr (by rw [hnil]; rfl)⟩ (fun _ => .inl trivial)
          (by simp [todo]) (fun _ h => by cases h)
    | none =>
      have hh : tmpOf fs x = [] := by simp [tmpOf, hi]
      rw [hh] at hr
      simp only [List.length_nil] at hr
      subst hr
      simp only [openTmp, hi]
      have hne : ∀ a i, fs.entry a = some i → i ≠ fs.next := fun a i ha => Nat.ne_of_lt (hf.bound a i ha)
      have hent : ∀ a, a ≠ .tmp x → Function.update fs.entry (.tmp x) (some fs.next) a = fs.entry a :=
        fun a ha => Function.update_of_ne ha _ _
      have hfile : ∀ a i, fs.entry a = some i → Function.update fs.file fs.next [] i = fs.file i :=
        fun a i ha => Function.update_of_ne (hne a i ha) _ _
      refine ⟨⟨?_, ?_, ?_, ?_⟩, ⟨?_, ?_, ?_, ?_⟩, ?_, ?_, ?_, fun _ => .inl trivial, ?_, fun _ h => (by cases h), fun h => absurd trivial h⟩
      · intro a b i ha hb
        dsimp only at ha hb
        show a = b
        by_cases h1 : a = .tmp x <;> by_cases h2 : b = .tmp x
        · rw [h1, h2]
        · exfalso
          subst h1
          simp only [Function.update_self, Option.some.injEq] at ha
          rw [hent b h2] at hb
          exact hne b i hb ha.symm
        · exfalso
          subst h2
          simp only [Function.update_self, Option.some.injEq] at hb
          rw [hent a h1] at ha
          exact hne a i ha hb.symm
        · rw [hent a h1] at ha
          rw [hent b h2] at hb
          exact hf.inj a b i ha hb
      · intro a i ha
        dsimp only at ha
        show i < fs.next + 1
        by_cases h1 : a = .tmp x
        · subst h1
          simp only [Function.update_self, Option.some.injEq] at ha
          omega
        · rw [hent a h1] at ha
          have := hf.bound a i ha
          omega
      · intro y i hy
        dsimp only at hy ⊢
        rw [hent _ (by simp)] at hy
        exact (hfile _ i hy).trans (hf.dst y i hy)
      · intro y i hy
        dsimp only at hy ⊢
        by_cases h1 : y = x
        · subst h1
          simp only [Function.update_self, Option.some.injEq] at hy
          subst hy
          rw [Function.update_self]
          exact List.nil_prefix
        · rw [hent _ (by simpa using h1)] at hy
          show Function.update fs.file fs.next [] i <+: _
          rw [hfile _ i hy]
          exact hf.tmp y i hy
      · exact (hent _ (by simp)).trans hd
      · exact Function.update_self ..
      · show body = (c x).drop (Function.update fs.file fs.next [] fs.next).length
        rw [Function.update_self]
        exact hbody
      · right
        show some 0 = some (Function.update fs.file fs.next [] fs.next).length
        rw [Function.update_self]
        rfl
      · intro y hy
        refine ⟨hent (.tmp y) (fun h => hy (Path.tmp.inj h)), hent (.dst y) (by simp), ?_⟩
        rintro i (h | h) <;> exact hfile _ i h
      · intro y h
        have := hent (.dst y) (by simp)
        dsimp only
        rw [this]; exact h
      · intro y i h
        exact ⟨(hent _ (by simp)).trans h, hfile _ i h⟩
      · intro _
        simp [todo]
  | copying i pos rest =>
    obtain ⟨hd, hi, hrest, hpos⟩ := hp
    cases hr : rest with
    | nil =>
      simp only [step]
      subst hr
      refine triv .rename ⟨hd, i, hi, ?_⟩ (fun _ => .inl trivial) (by simp [todo]) (fun _ h => by cases h)
      have hle := (hf.tmp x i hi).length_le
      have := List.drop_eq_nil_iff.1 hrest.symm
      exact (hf.tmp x i hi).eq_of_length (by omega)
    | cons b bs =>
      rw [← hr]
      have hlen : (rest.length : Nat) ≠ 0 := by simp [hr]
      -- both modes append
      have key : ∀ pos', (pos' = none ∨ pos' = some (fs.file i ++ rest.take n).length) →
          step zero sv n fs x (.copying i pos rest) =
            ({ fs with file := Function.update fs.file i (fs.file i ++ rest.take n) },
              .copying i (pos.map (fun p => p + (rest.take n).length)) (rest.drop n)) := by
        intro _ _
        rw [hr]
        simp only [step]
        rcases hpos with h | h
        · subst h; rfl
        · subst h
          simp only [pwrite_end]
          rfl
      rw [key none (.inl rfl)]
      have hpre := drop_take_prefix (hf.tmp x i hi) n
      rw [← hrest] at hpre
      have hne : ∀ a j, fs.entry a = some j → a ≠ .tmp x → j ≠ i := by
        rintro a j ha hat rfl
        exact hat (hf.inj _ _ _ ha hi)
      have hfile : ∀ a j, fs.entry a = some j → a ≠ .tmp x →
          Function.update fs.file i (fs.file i ++ rest.take n) j = fs.file j :=
        fun a j ha hat => Function.update_of_ne (hne a j ha hat) _ _
      refine ⟨⟨hf.inj, hf.bound, ?_, ?_⟩, ⟨hd, hi, ?_, ?_⟩, ?_, fun _ h => h, ?_, fun _ => .inl trivial, ?_,
        fun _ h => (by cases h), fun h => absurd trivial h⟩
      · intro y j hy
        exact (hfile _ j hy (by simp)).trans (hf.dst y j hy)
      · intro y j hy
        by_cases h1 : y = x
        · subst h1
          rw [hi] at hy
          cases hy
          dsimp only
          rw [Function.update_self]
          exact hpre.1
        · show Function.update fs.file i _ j <+: _
          rw [hfile _ j hy (by simpa using h1)]
          exact hf.tmp y j hy
      · dsimp only
        rw [Function.update_self]
        exact hpre.2
      · dsimp only
        rw [Function.update_self, List.length_append]
        rcases hpos with h | h
        · left; rw [h]; rfl
        · right; rw [h]; rfl
      · intro y hy
        refine ⟨rfl, rfl, ?_⟩
        rintro j (h | h)
        · exact hfile _ j h (by simpa using hy)
        · exact hfile _ j h (by simp)
      · intro y j h
        exact ⟨h, hfile _ j h (by simp)⟩
      · intro h
        have h1 : 1 ≤ n := h
        simp only [todo, List.length_drop]
        omega
  | rename =>
    obtain ⟨hd, i, hi, hc⟩ := hp
    simp only [step, hi]
    have hent : ∀ a, a ≠ .tmp x → a ≠ .dst x →
        Function.update (Function.update fs.entry (.tmp x) none) (.dst x) (some i) a = fs.entry a :=
      fun a h1 h2 => by rw [Function.update_of_ne h2, Function.update_of_ne h1]
    have htmp : Function.update (Function.update fs.entry (.tmp x) none) (.dst x) (some i) (.tmp x) = none := by
      rw [Function.update_of_ne (by simp), Function.update_self]
    have hdst : Function.update (Function.update fs.entry (.tmp x) none) (.dst x) (some i) (.dst x) = some i :=
      Function.update_self ..
    have hdn : ∀ y j, fs.entry (.dst y) = some j → y ≠ x := by
      rintro y j h rfl
      rw [hd] at h; cases h
    refine ⟨⟨?_, ?_, ?_, ?_⟩, ?_, ?_, ?_, ?_, fun h => h.elim, fun _ => (by simp [todo]), fun _ h => (by cases h), fun h => absurd trivial h⟩
    · intro a b j ha hb
      show a = b
      by_cases h1 : a = .tmp x
      · subst h1; dsimp only at ha; rw [htmp] at ha; cases ha
      by_cases h2 : b = .tmp x
      · subst h2; dsimp only at hb; rw [htmp] at hb; cases hb
      dsimp only at ha hb
      by_cases h3 : a = .dst x <;> by_cases h4 : b = .dst x
      · rw [h3, h4]
      · subst h3
        rw [hdst] at ha
        cases ha
        rw [hent b h2 h4] at hb
        exact absurd (hf.inj _ _ _ hb hi) h2
      · subst h4
        rw [hdst] at hb
        cases hb
        rw [hent a h1 h3] at ha
        exact absurd (hf.inj _ _ _ ha hi) h1
      · rw [hent a h1 h3] at ha
        rw [hent b h2 h4] at hb
        exact hf.inj a b j ha hb
    · intro a j ha
      by_cases h1 : a = .tmp x
      · subst h1; dsimp only at ha; rw [htmp] at ha; cases ha
      by_cases h3 : a = .dst x
      · subst h3
        dsimp only at ha
        rw [hdst] at ha
        cases ha
        exact hf.bound _ _ hi
      · dsimp only at ha
        rw [hent a h1 h3] at ha
        exact hf.bound a j ha
    · intro y j hy
      by_cases h1 : y = x
      · subst h1
        dsimp only at hy
        rw [hdst] at hy
        cases hy
        exact hc
      · dsimp only at hy
        rw [hent _ (by simp) (by simpa using h1)] at hy
        exact hf.dst y j hy
    · intro y j hy
      by_cases h1 : y = x
      · subst h1
        dsimp only at hy
        rw [htmp] at hy
        cases hy
      · dsimp only at hy
        rw [hent _ (by simpa using h1) (by simp)] at hy
        exact hf.tmp y j hy
    · show Option.isSome _ = true
      dsimp only
      rw [hdst]; rfl
    · intro y hy
      exact ⟨hent (.tmp y) (by simpa using hy) (by simp), hent (.dst y) (by simp) (by simpa using hy), fun _ _ => rfl⟩
    · intro y h
      obtain ⟨j, hj⟩ := Option.isSome_iff_exists.1 h
      dsimp only
      rw [hent _ (by simp) (fun h => hdn y j hj (Path.dst.inj h)), hj]
      rfl
    · intro y j hj
      exact ⟨(hent _ (by simp) (fun h => hdn y j hj (Path.dst.inj h))).trans hj, rfl⟩
  | load =>
    obtain ⟨i, hi⟩ := Option.isSome_iff_exists.1 (show (fs.entry (.dst x)).isSome from hp)
    simp only [step, hi]
    exact triv (.loaded (fs.file i)) (hf.dst x i hi) (fun h => h.elim) (by simp [todo]) (fun _ h => by cases h)
  | loaded f =>
    exact triv (.loaded f) hp (fun h => h.elim) (by simp [todo]) (fun _ h => by cases h)
  | failed e => exact hp.elim
  | killed => exact triv .killed trivial (fun h => h.elim) (by simp [todo]) (fun h _ => h rfl)

theorem event_ok {c : ι → List β} (hs : Spec.Hosts c sv) {w : World ι β} (hw : WorldOk c w) (e : Event)
    (hx : ∀ (k n : Nat) (p : Proc ι β), e = .go k n → w.procs[k]? = some p → p.pc = .start →
      (w.fs.entry (.dst p.id)).isSome ∨ ∀ q ∈ w.procs, q.id = p.id → ¬ Spec.Busy q.pc) :
    WorldOk c (w.event zero sv e) ∧
      ∀ y i, w.fs.entry (.dst y) = some i → (w.event zero sv e).fs.entry (.dst y) = some i ∧
        (w.event zero sv e).fs.file i = w.fs.file i := by
  cases e with
  | kill k =>
    cases hp : w.procs[k]? with
    | none =>
      simp only [World.event, hp]
      exact ⟨hw, fun y i h => ⟨h, by simp⟩⟩
    | some p =>
      simp only [World.event, hp]
      refine ⟨⟨hw.fs, ?_, ?_⟩, fun y i h => ⟨h, by simp⟩⟩
      · intro j q hq
        simp only [List.getElem?_set] at hq
        split_ifs at hq with h1 h2
        · cases hq; trivial
        · exact hw.pc j q hq
      · intro j j' q q' hq hq' hid hb hb'
        simp only [List.getElem?_set] at hq hq'
        split_ifs at hq with h1 h2
        · cases hq; exact hb.elim
        · split_ifs at hq' with h3 h4
          · cases hq'; exact hb'.elim
          · exact hw.uniq j j' q q' hq hq' hid hb hb'
  | go k n =>
    cases hp : w.procs[k]? with
    | none =>
      simp only [World.event, hp]
      exact ⟨hw, fun y i h => ⟨h, by simp⟩⟩
    | some p =>
      obtain ⟨h1, h2, h3, h4, h5, h6, -, -, h9⟩ := step_ok zero sv hs hw.fs p.id (hw.pc k p hp) n
      have hk := hx k n p rfl hp
      simp only [World.event, hp]
      generalize step zero sv n w.fs p.id p.pc = r at *
      -- a busy call with the same id is the one that moves
      have hother : ∀ j q, w.procs[j]? = some q → j ≠ k → q.id = p.id → Spec.Busy r.2 → ¬ Spec.Busy q.pc := by
        intro j q hq hjk hid hb hbq
        rcases h6 hb with h | ⟨h, hd⟩
        · exact hjk (hw.uniq j k q p hq hp hid hbq h)
        · rcases hk h with hsome | hall
          · rw [hd] at hsome; cases hsome
          · exact hall q (List.mem_of_getElem? hq) hid hbq
      refine ⟨⟨h1, ?_, ?_⟩, h5⟩
      · intro j q hq
        simp only [List.getElem?_set] at hq
        split_ifs at hq with hj hl
        · cases hq; exact h2
        · have hpc := hw.pc j q hq
          by_cases hid : q.id = p.id
          · by_cases hbp : Spec.Busy p.pc
            · have hnb : ¬ Spec.Busy q.pc := fun hb => hj (hw.uniq j k q p hq hp hid hb hbp).symm
              cases hqpc : q.pc with
              | load =>
                rw [hqpc] at hpc
                exact h4 _ hpc
              | loaded f => rw [hqpc] at hpc; exact hpc
              | failed e => rw [hqpc] at hpc; exact hpc
              | start => trivial
              | killed => trivial
              | _ => rw [hqpc] at hnb; exact absurd trivial hnb
            · rw [h9 hbp]; exact hpc
          · exact pcOk_same (h3 q.id hid) hpc
      · intro j j' q q' hq hq' hid hb hb'
        simp only [List.getElem?_set] at hq hq'
        split_ifs at hq with hj hl
        · split_ifs at hq' with hj' hl'
          · exact hj.symm.trans hj'
          · cases hq
            exact absurd hb' (hother j' q' hq' (fun h => hj' h.symm) hid.symm hb)
        · split_ifs at hq' with hj' hl'
          · cases hq'
            exact absurd hb (hother j q hq (fun h => hj h.symm) hid hb')
          · exact hw.uniq j j' q q' hq hq' hid hb hb'

theorem run_ok {c : ι → List β} (hs : Spec.Hosts c sv) (es : List Event) {w : World ι β} (hw : WorldOk c w)
    (hx : Spec.Exclusive zero sv w es) :
    WorldOk c (w.run zero sv es) ∧
      ∀ y i, w.fs.entry (.dst y) = some i → (w.run zero sv es).fs.entry (.dst y) = some i ∧
        (w.run zero sv es).fs.file i = w.fs.file i := by
  induction es generalizing w with
  | nil => exact ⟨hw, fun y i h => ⟨h, rfl⟩⟩
  | cons e es ih =>
    obtain ⟨h1, h2⟩ := event_ok zero sv hs hw e hx.1
    obtain ⟨h3, h4⟩ := ih h1 hx.2
    refine ⟨h3, fun y i h => ?_⟩
    obtain ⟨a, b⟩ := h2 y i h
    obtain ⟨a', b'⟩ := h4 y i a
    exact ⟨a', b'.trans b⟩

/-- all calls are about to begin -/
def Spec.Fresh (w : World ι β) : Prop := ∀ p ∈ w.procs, p.pc = .start

theorem fresh_ok {c : ι → List β} {w : World ι β} (hf : Spec.GoodFS c w.fs) (h : Spec.Fresh w) : WorldOk c w where
  fs := hf
  pc := fun k p hp => by rw [h p (List.mem_of_getElem? hp)]; trivial
  uniq := fun j k p q hp _ _ hb => by rw [h p (List.mem_of_getElem? hp)] at hb; exact hb.elim

/-- the number of steps of call `k` in a history -/
def Spec.stepsOf (k : Nat) (es : List Event) : Nat :=
  (es.filter (fun e => match e with | .go j _ => j == k | .kill _ => false)).length

/-- a call that is not killed finishes -/
theorem run_done {c : ι → List β} (hs : Spec.Hosts c sv) (k : Nat) (es : List Event) {w : World ι β}
    (hw : WorldOk c w) (hx : Spec.Exclusive zero sv w es) (hkill : Event.kill k ∉ es)
    (hn : Event.go k 0 ∉ es) (p : Proc ι β) (hp : w.procs[k]? = some p)
    (hpk : p.pc ≠ .killed) (hlen : todo (c p.id).length p.pc ≤ Spec.stepsOf k es) :
    (w.run zero sv es).procs[k]? = some ⟨p.id, .loaded (c p.id)⟩ := by
  induction es generalizing w p with
  | nil =>
    have h0 : todo (c p.id).length p.pc = 0 := Nat.le_zero.1 hlen
    have hok := hw.pc k p hp
    show w.procs[k]? = _
    rw [hp]
    obtain ⟨x, pc⟩ := p
    cases pc with
    | loaded f => simp only [PcOk] at hok; rw [hok]
    | failed e => exact hok.elim
    | killed => exact absurd rfl hpk
    | _ => simp [todo] at h0
  | cons e es ih =>
    have hok := event_ok zero sv hs hw e hx.1
    have hk' : Event.kill k ∉ es := fun h => hkill (List.mem_cons_of_mem _ h)
    have hn' : Event.go k 0 ∉ es := fun h => hn (List.mem_cons_of_mem _ h)
    show ((w.event zero sv e).run zero sv es).procs[k]? = _
    -- the call itself moves, or something else happens
    by_cases hek : ∃ n, e = .go k n
    · obtain ⟨n, rfl⟩ := hek
      have hn1 : 1 ≤ n := by
        rcases Nat.eq_zero_or_pos n with h | h
        · subst h; exact absurd (List.mem_cons_self ..) hn
        · exact h
      obtain ⟨-, -, -, -, -, -, h7, h8, -⟩ := step_ok zero sv hs hw.fs p.id (hw.pc k p hp) n
      have hproc : (w.event zero sv (.go k n)).procs[k]? = some ⟨p.id, (step zero sv n w.fs p.id p.pc).2⟩ := by
        simp only [World.event, hp]
        rw [List.getElem?_set_self]
        exact (List.getElem?_eq_some_iff.1 hp).1
      refine ih hok.1 hx.2 hk' hn' ⟨p.id, (step zero sv n w.fs p.id p.pc).2⟩ hproc (h8 hpk) ?_
      have h7' := h7 hn1
      have : Spec.stepsOf k (Event.go k n :: es) = Spec.stepsOf k es + 1 := by
        simp [Spec.stepsOf]
      rw [this] at hlen
      show todo (c p.id).length (step zero sv n w.fs p.id p.pc).2 ≤ _
      omega
    · have hproc : (w.event zero sv e).procs[k]? = some p := by
        cases e with
        | go j n =>
          have hj : j ≠ k := by rintro rfl; exact hek ⟨n, rfl⟩
          cases hq : w.procs[j]? with
          | none => simp only [World.event, hq]; exact hp
          | some q => simp only [World.event, hq]; rw [List.getElem?_set_ne hj]; exact hp
        | kill j =>
          have hj : j ≠ k := by rintro rfl; exact hkill (List.mem_cons_self ..)
          cases hq : w.procs[j]? with
          | none => simp only [World.event, hq]; exact hp
          | some q => simp only [World.event, hq]; rw [List.getElem?_set_ne hj]; exact hp
      refine ih hok.1 hx.2 hk' hn' p hproc hpk (Nat.le_trans hlen ?_)
      cases e with
      | go j n =>
        have hj : j ≠ k := by rintro rfl; exact hek ⟨n, rfl⟩
        simp [Spec.stepsOf, hj]
      | kill j => simp [Spec.stepsOf]

/-- **C97** (safety). Any number of calls of `download`, interrupted by each other between any two system calls
and killed anywhere. If no call begins while another one is busy with the same id (unless the final file
exists), then at any time every final file is complete, every temporary file is a beginning of its content, whatever
a call has loaded is the content of its id, and no call has raised an exception. -/
theorem C97_safe_partial {c : ι → List β} (hs : Spec.Hosts c sv) (w : World ι β) (hf : Spec.GoodFS c w.fs)
    (hw : Spec.Fresh w) (es : List Event) (hx : Spec.Exclusive zero sv w es) :
    Spec.GoodFS c (w.run zero sv es).fs ∧
      ∀ p ∈ (w.run zero sv es).procs, (∀ f, p.pc = .loaded f → f = c p.id) ∧ ∀ e, p.pc ≠ .failed e := by
  have h := (run_ok zero sv hs es (fresh_ok hf hw) hx).1
  refine ⟨h.fs, fun p hp => ?_⟩
  obtain ⟨k, hk⟩ := List.getElem?_of_mem hp
  have := h.pc k p hk
  refine ⟨fun f hpc => ?_, fun e hpc => ?_⟩
  · rw [hpc] at this; exact this
  · rw [hpc] at this; exact this

/-- **C97** (progress). Under the same conditions a call that is not killed and makes enough steps, each of its
writes writing something, has loaded the content of its id, whatever the other calls do meanwhile. -/
theorem C97_completes_partial {c : ι → List β} (hs : Spec.Hosts c sv) (w : World ι β) (hf : Spec.GoodFS c w.fs)
    (hw : Spec.Fresh w) (es : List Event) (hx : Spec.Exclusive zero sv w es) (k : Nat) (p : Proc ι β)
    (hp : w.procs[k]? = some p) (hkill : Event.kill k ∉ es) (hn : Event.go k 0 ∉ es)
    (hlen : (c p.id).length + 9 ≤ Spec.stepsOf k es) :
    (w.run zero sv es).procs[k]? = some ⟨p.id, .loaded (c p.id)⟩ := by
  have hstart := hw p (List.mem_of_getElem? hp)
  refine run_done zero sv hs k es (fresh_ok hf hw) hx hkill hn p hp (by rw [hstart]; intro h; cases h) ?_
  rw [hstart]
  exact hlen

/-- calls for pairwise different ids are exclusive -/
theorem exclusive_of_nodup (w : World ι β)
    (hd : (w.procs.map Proc.id).Nodup) (es : List Event) : Spec.Exclusive zero sv w es := by
  have gen : ∀ w : World ι β, (w.procs.map Proc.id).Nodup → Spec.Exclusive zero sv w es := by
    clear hd w
    induction es with
    | nil => intro w _; trivial
    | cons e es ih =>
      intro w hd
      refine ⟨?_, ih _ ?_⟩
      · rintro k n p - hp hstart
        right
        intro q hq hid hb
        have hpm := List.mem_of_getElem? hp
        have := List.inj_on_of_nodup_map hd hq hpm hid
        rw [this, hstart] at hb
        exact hb
      · have : (w.event zero sv e).procs.map Proc.id = w.procs.map Proc.id := by
          have hset : ∀ (k : Nat) (p : Proc ι β) (pc : Pc β), w.procs[k]? = some p →
              (w.procs.set k ⟨p.id, pc⟩).map Proc.id = w.procs.map Proc.id := by
            intro k p pc hp
            apply List.ext_getElem?
            intro j
            rw [List.getElem?_map, List.getElem?_set, List.getElem?_map]
            split_ifs with h1 h2
            · subst h1; rw [hp]; rfl
            · subst h1
              rw [List.getElem?_eq_none (by omega)]
            · rfl
          cases e with
          | go k n =>
            cases hp : w.procs[k]? with
            | none => simp only [World.event, hp]
            | some p => simp only [World.event, hp]; exact hset k p _ hp
          | kill k =>
            cases hp : w.procs[k]? with
            | none => simp only [World.event, hp]
            | some p => simp only [World.event, hp]; exact hset k p _ hp
        rw [this]
        exact hd
  exact gen w hd

/-- **C97** (different ids). Calls for pairwise different ids do not disturb each other, in whatever order their
steps are made and wherever some of them are killed: what each of them loads is the content of its id, none raises an
exception, and each that is not killed gets there. -/
theorem C97_different_ids {c : ι → List β} (hs : Spec.Hosts c sv) (w : World ι β) (hf : Spec.GoodFS c w.fs)
    (hw : Spec.Fresh w) (hd : (w.procs.map Proc.id).Nodup) (es : List Event) :
    Spec.GoodFS c (w.run zero sv es).fs ∧
      (∀ p ∈ (w.run zero sv es).procs, (∀ f, p.pc = .loaded f → f = c p.id) ∧ ∀ e, p.pc ≠ .failed e) ∧
      ∀ (k : Nat) (p : Proc ι β), w.procs[k]? = some p → Event.kill k ∉ es → Event.go k 0 ∉ es →
        (c p.id).length + 9 ≤ Spec.stepsOf k es → (w.run zero sv es).procs[k]? = some ⟨p.id, .loaded (c p.id)⟩ := by
  have hx := exclusive_of_nodup zero sv w hd es
  obtain ⟨h1, h2⟩ := C97_safe_partial zero sv hs w hf hw es hx
  exact ⟨h1, h2, fun k p hp hk hn hl => C97_completes_partial zero sv hs w hf hw es hx k p hp hk hn hl⟩

/-- **C97** (cached runs). Once the final file of an id exists, no later event changes it. -/
theorem C97_cached_partial {c : ι → List β} (hs : Spec.Hosts c sv) (w : World ι β) (hf : Spec.GoodFS c w.fs)
    (hw : Spec.Fresh w) (es es' : List Event) (hx : Spec.Exclusive zero sv w (es ++ es')) (x : ι)
    (hd : ((w.run zero sv es).fs.entry (.dst x)).isSome) :
    ∃ i, (w.run zero sv (es ++ es')).fs.entry (.dst x) = some i ∧ (w.run zero sv (es ++ es')).fs.file i = c x := by
  have hsplit : ∀ (es : List Event) (w : World ι β), Spec.Exclusive zero sv w (es ++ es') →
      Spec.Exclusive zero sv w es ∧ Spec.Exclusive zero sv (w.run zero sv es) es' := by
    intro es
    induction es with
    | nil => intro w h; exact ⟨trivial, h⟩
    | cons e es ih => intro w h; exact ⟨⟨h.1, (ih _ h.2).1⟩, (ih _ h.2).2⟩
  obtain ⟨h1, h2⟩ := hsplit es w hx
  have hok := (run_ok zero sv hs es (fresh_ok hf hw) h1).1
  obtain ⟨i, hi⟩ := Option.isSome_iff_exists.1 hd
  have := (run_ok zero sv hs es' hok h2).2 x i hi
  have hrun : w.run zero sv (es ++ es') = (w.run zero sv es).run zero sv es' := by
    unfold World.run; rw [List.foldl_append]
  rw [hrun]
  exact ⟨i, this.1, this.2.trans (hok.fs.dst x i hi)⟩

/-! ### two calls for the same id -/

/-- nothing downloaded yet -/
def emptyFS (ι β : Type*) : FS ι β := ⟨fun _ => none, fun _ => [], 0⟩

theorem emptyFS_good (c : ι → List β) : Spec.GoodFS c (emptyFS ι β) :=
  ⟨fun _ _ _ h => (by cases h), fun _ _ h => (by cases h), fun _ _ h => (by cases h), fun _ _ h => (by cases h)⟩

/-- a server that behaves -/
def goodServer (c : ι → List β) : Server ι β :=
  ⟨fun x => some (c x).length, fun x r => match r with | none => c x | some n => (c x).drop n⟩

theorem goodServer_hosts (c : ι → List β) : Spec.Hosts c (goodServer c) :=
  fun _ => ⟨rfl, rfl, fun _ => rfl⟩

/-- two calls for the same id -/
def twoCalls (β : Type*) : World Unit β := ⟨emptyFS Unit β, [⟨(), .start⟩, ⟨(), .start⟩]⟩

/-- `m` steps of call `k`, each writing at most `n` bytes -/
def goes (k n m : Nat) : List Event := List.replicate m (.go k n)

/-- **C97, refuted for two calls with the same id** (resuming while another call is still writing): the second
call finds one byte of the file, the first one writes another, the second one appends from the second byte on. It
loads the wrong bytes, and the final file is wrong for every later call. -/
theorem C97_resume_refuted (a b : β) (t : List β) :
    let w := (twoCalls β).run zero (goodServer (fun _ => a :: b :: t))
      (goes 0 1 6 ++ goes 1 1 6 ++ goes 0 1 1 ++ goes 1 (t.length + 1) 4)
    w.procs[1]? = some ⟨(), .loaded (a :: b :: b :: t)⟩ ∧
      (w.fs.entry (.dst ())).map w.fs.file = some (a :: b :: b :: t) := by
  simp [World.run, goes, twoCalls, emptyFS, goodServer, World.event, step, openTmp, List.replicate_succ, pwrite]

/-- **C97, refuted for two calls that begin together**: both see no temporary file; the second one empties the
file that the first one is writing, which leaves a gap of zero bytes at the beginning. The first call loads the wrong
bytes. -/
theorem C97_truncate_refuted (a b : β) (t : List β) :
    ((twoCalls β).run zero (goodServer (fun _ => a :: b :: t))
      (goes 0 1 4 ++ goes 1 1 4 ++ goes 0 1 2 ++ goes 1 1 1 ++ goes 0 (t.length + 1) 4)).procs[0]? =
        some ⟨(), .loaded (zero :: b :: t)⟩ := by
  simp [World.run, goes, twoCalls, emptyFS, goodServer, World.event, step, openTmp, List.replicate_succ, pwrite]

/-- **C97, refuted for two calls with the same id** (spurious failure): the second call finds the temporary file
complete and is about to rename it when the first one does; it raises FileNotFoundError although the run has been
downloaded. -/
theorem C97_rename_refuted (c : List β) (hc : c ≠ []) :
    let w := (twoCalls β).run zero (goodServer (fun _ => c))
      (goes 0 c.length 7 ++ goes 1 1 4 ++ goes 0 1 2 ++ goes 1 1 1)
    w.procs[1]? = some ⟨(), .failed .osError⟩ ∧ w.procs[0]? = some ⟨(), .loaded c⟩ := by
  obtain ⟨b, t, rfl⟩ := List.exists_cons_of_ne_nil hc
  simp [World.run, goes, twoCalls, emptyFS, goodServer, World.event, step, openTmp, List.replicate_succ, pwrite]

/-! ### non-vacuity -/

/-- three calls for two ids; the first one for `0` is killed after two of its three bytes have been written, the
second one begins after that, and the call for `1` runs in between -/
def exCalls : World Nat Nat := ⟨emptyFS Nat Nat, [⟨0, .start⟩, ⟨1, .start⟩, ⟨0, .start⟩]⟩

def exEvents : List Event :=
  goes 0 1 5 ++ goes 1 1 6 ++ goes 0 2 1 ++ [.kill 0] ++ goes 2 1 8 ++ goes 1 1 5 ++ goes 2 1 4 ++ goes 1 1 6

def exContent (x : Nat) : List Nat := [10 * x, 10 * x + 1, 10 * x + 2]

theorem exEvents_exclusive : Spec.Exclusive 0 (goodServer exContent) exCalls exEvents := by
  simp [exEvents, goes, List.replicate_succ, Spec.Exclusive, exCalls, emptyFS, goodServer, exContent, World.event, step,
    openTmp, pwrite, Spec.Busy]
  repeat' apply And.intro
  all_goals
    rintro k n p rfl rfl h hpc
    simp only [List.getElem?_cons_zero, List.getElem?_cons_succ, Option.some.injEq] at h
    subst h
    first | (cases hpc; done) | simp

example : ((exCalls.run 0 (goodServer exContent) exEvents).procs[2]? = some ⟨0, .loaded [0, 1, 2]⟩) ∧
    ((exCalls.run 0 (goodServer exContent) exEvents).procs[1]? = some ⟨1, .loaded [10, 11, 12]⟩) :=
  ⟨C97_completes_partial 0 _ (goodServer_hosts exContent) exCalls (emptyFS_good _)
      (by simp [Spec.Fresh, exCalls]) exEvents exEvents_exclusive 2 ⟨0, .start⟩ rfl
      (by simp [exEvents, goes, List.replicate_succ]) (by simp [exEvents, goes, List.replicate_succ])
      (by simp [exEvents, goes, List.replicate_succ, Spec.stepsOf, exContent]),
    C97_completes_partial 0 _ (goodServer_hosts exContent) exCalls (emptyFS_good _)
      (by simp [Spec.Fresh, exCalls]) exEvents exEvents_exclusive 1 ⟨1, .start⟩ rfl
      (by simp [exEvents, goes, List.replicate_succ]) (by simp [exEvents, goes, List.replicate_succ])
      (by simp [exEvents, goes, List.replicate_succ, Spec.stepsOf, exContent])⟩

end Ranx
