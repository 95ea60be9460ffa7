import Mathlib.Data.List.Basic
import Verif.Model.Download

/-!
# Property C80: downloading is crash safe
-/

namespace Ranx
open Dl

variable {β : Type*}

/-- the server holds `c`, reports its length, and honours Range -/
def Spec.Serves (c : List β) (a : Attempt β) : Prop :=
  a.head = some c.length ∧ a.body none = c ∧ ∀ n, a.body (some n) = c.drop n

/-- what may be on the disk: a beginning of `c` as the temporary file, `c` itself as the final file -/
def Spec.GoodDisk (c : List β) (d : Disk β) : Prop :=
  (∀ f, d.tmp = some f → f <+: c) ∧ (∀ f, d.dst = some f → f = c)

theorem write_prefix (c : List β) (tmp : Option (List β)) (n : Nat) (hn : n = (tmp.getD []).length)
    (ht : tmp.getD [] <+: c) (received : List β) (hr : received <+: (if n ≠ 0 then c.drop n else c)) :
    Dl.write tmp n received <+: c ∧
      (received = (if n ≠ 0 then c.drop n else c) → Dl.write tmp n received = c) := by
  unfold Dl.write
  by_cases h0 : n ≠ 0
  · rw [if_pos h0] at hr ⊢
    rw [if_pos h0]
    obtain ⟨t, rfl⟩ := ht
    have : (tmp.getD [] ++ t).drop n = t := by rw [hn]; simp
    rw [this] at hr ⊢
    refine ⟨(List.prefix_append_right_inj _).2 hr, ?_⟩
    rintro rfl; rfl
  · rw [if_neg h0] at hr ⊢
    rw [if_neg h0]
    exact ⟨hr, id⟩

theorem downloader_good (c : List β) (a : Attempt β) (h : Spec.Serves c a) (tmp : Option (List β)) (n : Nat)
    (hn : n = (tmp.getD []).length) (ht : tmp.getD [] <+: c) (hnone : ∀ f, tmp = some f → f <+: c) :
    (∀ f, (downloader a tmp n).1 = some f → f <+: c) ∧
      ((downloader a tmp n).2 = true → (downloader a tmp n).1 = some c) ∧
      ((downloader a tmp n).2 = false ↔ a.stop = .beforeOpen ∨ ∃ k, a.stop = .written k) := by
  have hbody : a.body (if n ≠ 0 then some n else none) = if n ≠ 0 then c.drop n else c := by
    by_cases h0 : n ≠ 0
    · rw [if_pos h0, if_pos h0]; exact h.2.2 n
    · rw [if_neg h0, if_neg h0]; exact h.2.1
  unfold downloader
  rw [hbody]
  cases hs : a.stop with
  | beforeOpen => exact ⟨hnone, by simp, by simp⟩
  | written k =>
    refine ⟨?_, by simp, by simp⟩
    intro f hf
    cases hf
    exact (write_prefix c tmp n hn ht _ (List.take_prefix _ _)).1
  | never =>
    have := write_prefix c tmp n hn ht _ (List.prefix_refl _)
    exact ⟨fun f hf => (by cases hf; exact this.1), fun _ => congrArg some (this.2 rfl), by simp⟩
  | beforeRename =>
    have := write_prefix c tmp n hn ht _ (List.prefix_refl _)
    exact ⟨fun f hf => (by cases hf; exact this.1), fun _ => congrArg some (this.2 rfl), by simp⟩

theorem downloadFile_good (c : List β) (a : Attempt β) (h : Spec.Serves c a) (tmp : Option (List β))
    (hnone : ∀ f, tmp = some f → f <+: c) :
    (∀ f, (downloadFile a tmp).1 = some f → f <+: c) ∧
      ((downloadFile a tmp).2 = true → (downloadFile a tmp).1 = some c) ∧
      (a.stop = .never → (downloadFile a tmp).2 = true) := by
  unfold downloadFile
  cases tmp with
  | none =>
    have := downloader_good c a h none 0 rfl (List.nil_prefix) hnone
    refine ⟨this.1, this.2.1, fun hs => ?_⟩
    by_contra hc
    have := this.2.2.1 (by simpa using hc)
    rw [hs] at this
    simp at this
  | some f =>
    by_cases hl : a.head.getD 0 ≠ f.length
    · simp only [if_pos hl]
      have := downloader_good c a h (some f) f.length rfl (hnone f rfl) hnone
      refine ⟨this.1, this.2.1, fun hs => ?_⟩
      by_contra hc
      have := this.2.2.1 (by simpa using hc)
      rw [hs] at this
      simp at this
    · simp only [if_neg hl]
      rw [h.1] at hl
      simp only [Option.getD_some, ne_eq, not_not] at hl
      have he : f = c := (hnone f rfl).eq_of_length hl.symm
      refine ⟨hnone, fun _ => congrArg some he, fun hs => by simp [hs]⟩

theorem download_good (c : List β) (a : Attempt β) (h : Spec.Serves c a) (d : Disk β)
    (hd : Spec.GoodDisk c d) : Spec.GoodDisk c (download a d).1 ∧
      (∀ f, (download a d).2 = some f → f = c) ∧
      (a.stop = .never → (download a d).2 = some c ∧ (download a d).1.dst = some c) := by
  obtain ⟨ht, hdst⟩ := hd
  unfold download
  cases hx : d.dst with
  | some f =>
    simp only []
    have := hdst f hx
    subst this
    exact ⟨⟨ht, fun g hg => hdst g hg⟩, fun g hg => (by cases hg; rfl), fun _ => ⟨rfl, hx⟩⟩
  | none =>
    obtain ⟨h1, h2, h3⟩ := downloadFile_good c a h d.tmp ht
    rcases hr : downloadFile a d.tmp with ⟨tmp, b⟩
    rw [hr] at h1 h2 h3
    cases b with
    | false =>
      refine ⟨⟨h1, fun f hf => (by cases hf)⟩, fun f hf => (by cases hf), fun hs => ?_⟩
      have := h3 hs
      cases this
    | true =>
      have htc : tmp = some c := h2 rfl
      by_cases hb : a.stop = .beforeRename
      · simp only [if_pos hb]
        refine ⟨⟨h1, fun f hf => (by cases hf)⟩, fun f hf => (by cases hf), fun hs => ?_⟩
        rw [hs] at hb; cases hb
      · simp only [if_neg hb]
        subst htc
        exact ⟨⟨fun f hf => (by cases hf), fun f hf => (by cases hf; rfl)⟩, fun f hf => (by cases hf; rfl),
          fun _ => ⟨rfl, rfl⟩⟩

/-- **C80.** If the server holds `c`, reports its length and honours Range, then after any history of calls,
each stopped anywhere or not at all, the final file does not exist or holds exactly `c`, the temporary
file is a beginning of `c`, whatever is loaded is `c`; and the first call that is not stopped loads `c`. -/
theorem C80_crash_safe (c : List β) (as : List (Attempt β)) (h : ∀ a ∈ as, Spec.Serves c a)
    (d : Disk β) (hd : Spec.GoodDisk c d) :
    Spec.GoodDisk c (downloads as d) ∧
      ∀ a, Spec.Serves c a →
        (∀ f, (download a (downloads as d)).2 = some f → f = c) ∧
        (a.stop = .never → (download a (downloads as d)).2 = some c ∧
          (download a (downloads as d)).1.dst = some c) := by
  have hg : Spec.GoodDisk c (downloads as d) := by
    unfold downloads
    induction as generalizing d with
    | nil => exact hd
    | cons a as ih =>
      exact ih (fun x hx => h x (List.mem_cons_of_mem _ hx)) _
        (download_good c a (h a (List.mem_cons_self ..)) d hd).1
  exact ⟨hg, fun a ha => (download_good c a ha _ hg).2⟩

/-- **C80** (at most the missing bytes are requested): an attempt that resumes asks for the bytes from the
end of the temporary file on; one that finds the file complete asks for nothing. -/
theorem C80_resumes (c : List β) (a a' : Attempt β) (hh : a.head = a'.head) (hs : a.stop = a'.stop)
    (f : List β) (hf : f ≠ []) (hr : a.body (some f.length) = a'.body (some f.length) ∨
      a.head = some f.length) :
    download a ⟨some f, none⟩ = download a' ⟨some f, none⟩ := by
  have hl : f.length ≠ 0 := fun h => hf (List.length_eq_zero_iff.1 h)
  have : downloadFile a (some f) = downloadFile a' (some f) := by
    unfold downloadFile
    simp only [← hh]
    by_cases he : a.head.getD 0 ≠ f.length
    · simp only [if_pos he]
      unfold downloader
      rw [if_pos hl]
      rcases hr with hr | hr
      · rw [← hs, hr]
      · rw [hr] at he; exact absurd rfl he
    · simp only [if_neg he, hs]
  unfold download
  simp only [this, hs]

/-- **C80** (a finished download is final): once the final file exists no call ever changes the disk. -/
theorem C80_final (as : List (Attempt β)) (d : Disk β) (f : List β) (hf : d.dst = some f) :
    downloads as d = d ∧ ∀ a, (download a d).2 = some f := by
  have h : ∀ a, download a d = (d, some f) := by
    intro a; unfold download; rw [hf]
  refine ⟨?_, fun a => by rw [h]⟩
  unfold downloads
  induction as with
  | nil => rfl
  | cons a as ih => rw [List.foldl_cons, h a]; exact ih

/-! ### what goes wrong when the server misbehaves -/

/-- **C80, refuted without the assumption on the transfer**: the status code and the number of received bytes
are not checked, so any answer `x` (an error page, a transfer cut short without an error) becomes the final
file, and stays there for all later calls, even when the server recovers. -/
theorem C80_unchecked_refuted (a : Attempt β) (x : List β) (hx : a.body none = x) (hs : a.stop = .never)
    (later : List (Attempt β)) :
    (downloads (a :: later) ⟨none, none⟩).dst = some x ∧
      ∀ b, (download b (downloads (a :: later) ⟨none, none⟩)).2 = some x := by
  have h : download a ⟨none, none⟩ = (⟨none, some x⟩, some x) := by
    simp [download, downloadFile, downloader, hs, hx, Dl.write]
  have h2 : downloads (a :: later) ⟨none, none⟩ = downloads later ⟨none, some x⟩ := by
    simp [downloads, h]
  rw [h2]
  have := C80_final later (⟨none, some x⟩ : Disk β) x rfl
  rw [this.1]
  exact ⟨rfl, this.2⟩

/-- **C80, refuted if the server ignores Range**: an interrupted download is completed to a beginning of the
content followed by the whole content. -/
theorem C80_range_ignored_refuted (c : List β) (k : Nat) (hk : 0 < k) (hkc : k < c.length)
    (a b : Attempt β) (ha : a.body none = c) (hs : a.stop = .written k)
    (hb : b.body (some k) = c) (hh : b.head = some c.length) (hs' : b.stop = .never) :
    (downloads [a, b] ⟨none, none⟩).dst = some (c.take k ++ c) := by
  have h1 : download a ⟨none, none⟩ = (⟨some (c.take k), none⟩, none) := by
    simp [download, downloadFile, downloader, hs, ha, Dl.write]
  have hlen : (c.take k).length = k := by simp; omega
  have h2 : download b ⟨some (c.take k), none⟩ = (⟨none, some (c.take k ++ c)⟩, some (c.take k ++ c)) := by
    have hne : ¬ c.length = k := by omega
    have hk0 : k ≠ 0 := by omega
    simp only [download, downloadFile, hlen, hh, downloader, hs', Dl.write, hb, Option.getD_some]
    rw [if_pos hne]
    simp [hk0, hb]
  simp [downloads, h1, h2]

/-- **C80, refuted without a content-length**: a complete temporary file (the process was killed before the
renaming) is not recognised; the answer `x` to the unsatisfiable Range request is appended to it. -/
theorem C80_no_length_refuted (c x : List β) (hc : c ≠ []) (b : Attempt β) (hh : b.head = none)
    (hb : b.body (some c.length) = x) (hs : b.stop = .never) :
    (downloads [b] ⟨some c, none⟩).dst = some (c ++ x) := by
  have hl : c.length ≠ 0 := fun h => hc (List.length_eq_zero_iff.1 h)
  have h2 : download b ⟨some c, none⟩ = (⟨none, some (c ++ x)⟩, some (c ++ x)) := by
    simp only [download, downloadFile, hh, downloader, hs, Dl.write, Option.getD_none]
    rw [if_pos (fun h => hl h.symm)]
    simp [hc, hb]
  simp [downloads, h2]

/-- **C80, refuted if the file on the server changes between calls**: the result mixes both versions. -/
theorem C80_changed_refuted (c c' : List β) (k : Nat) (hk : 0 < k) (hkc : k < c.length)
    (hlen : c'.length = c.length) (a b : Attempt β) (ha : Spec.Serves c a) (hs : a.stop = .written k)
    (hb : Spec.Serves c' b) (hs' : b.stop = .never) :
    (downloads [a, b] ⟨none, none⟩).dst = some (c.take k ++ c'.drop k) := by
  have h1 : download a ⟨none, none⟩ = (⟨some (c.take k), none⟩, none) := by
    simp [download, downloadFile, downloader, hs, ha.2.1, Dl.write]
  have hlen' : (c.take k).length = k := by simp; omega
  have h2 : download b ⟨some (c.take k), none⟩ =
      (⟨none, some (c.take k ++ c'.drop k)⟩, some (c.take k ++ c'.drop k)) := by
    have hne : ¬ c'.length = k := by omega
    have hk0 : k ≠ 0 := by omega
    simp only [download, downloadFile, hlen', hb.1, downloader, hs', Dl.write, Option.getD_some]
    rw [if_pos hne]
    simp [hk0, hb.2.2]
  simp [downloads, h1, h2]

/-! ### non-vacuity -/

/-- a good server -/
def exServer (c : List Nat) (stop : Stop) : Attempt Nat :=
  ⟨some c.length, fun | none => c | some n => c.drop n, stop⟩

theorem exServer_serves (c : List Nat) (stop : Stop) : Spec.Serves c (exServer c stop) :=
  ⟨rfl, rfl, fun _ => rfl⟩

/-- killed four times in different places, then completed -/
example : (downloads ([.beforeOpen, .written 2, .written 1, .beforeRename].map (exServer [5, 6, 7, 8, 9]))
      ⟨none, none⟩).tmp = some [5, 6, 7, 8, 9] ∧
    (downloads ([.written 0, .written 2, .written 1, .never].map (exServer [5, 6, 7, 8, 9]))
      ⟨none, none⟩).dst = some [5, 6, 7, 8, 9] ∧
    (downloads ([.written 2, .written 1].map (exServer [5, 6, 7, 8, 9])) ⟨none, none⟩).tmp =
      some [5, 6, 7] := by decide

example : Spec.GoodDisk [5, 6, 7] ⟨some [5], none⟩ :=
  ⟨fun f hf => (by cases hf; decide), fun f hf => (by cases hf)⟩

end Ranx
