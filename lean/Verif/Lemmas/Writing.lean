import Verif.Lemmas.Output
import Verif.Spec.Writing

/-!
# Lemmas about output to devices that take only so much
-/

namespace Kws
open Spec

namespace OStream

/-- A stream with `badbit` has no room. -/
def Spent (f : OStream) : Prop := f.bad = true → f.room = 0

theorem new_spent (n : ℕ) (b : Bool) : (new n b).Spent := fun h => by cases h

theorem insert_spent {f : OStream} (h : f.Spent) (s : Str) : (f.insert s).1.Spent := by
  unfold insert
  split
  · exact h
  · split
    · rename_i hb _
      exact fun hb' => absurd hb' hb
    · exact fun _ => rfl

theorem insert_written {f : OStream} (h : f.Spent) (s : Str) :
    (f.insert s).1.written = f.written ++ s.take f.room := by
  unfold insert
  split
  · rename_i hb
    rw [h hb]
    simp
  · split
    · rename_i hl
      rw [List.take_of_length_le hl]
    · rfl

theorem insert_room {f : OStream} (h : f.Spent) (s : Str) : (f.insert s).1.room = f.room - s.length := by
  unfold insert
  split
  · rename_i hb
    simp [h hb]
  · split
    · rfl
    · show 0 = _
      omega

theorem insert_new (n : ℕ) (b : Bool) (s : Str) : ((new n b).insert s).1.written = s.take n := by
  rw [insert_written (new_spent n b)]
  rfl

theorem insert_fits (n : ℕ) (b : Bool) {s : Str} (h : s.length ≤ n) : ((new n b).insert s).2 = .ok () := by
  unfold insert new
  simp [h]

theorem insert_throws (n : ℕ) {s : Str} (h : ¬ s.length ≤ n) : ((new n true).insert s).2 = .error .ioFailure := by
  unfold insert new
  simp [h]

/-- Writing line after line is like writing the whole text at once. -/
theorem insertAll_flatten (f : OStream) (hb : f.bad = false) (ss : List Str) :
    f.insertAll ss = f.insert ss.flatten := by
  induction ss generalizing f with
  | nil =>
    obtain ⟨w, n, b, t⟩ := f
    simp [insertAll, insert] at hb ⊢
  | cons s ss ih =>
    unfold insertAll
    by_cases h : s.length ≤ f.room
    · have e : f.insert s = ({ f with written := f.written ++ s, room := f.room - s.length }, .ok ()) := by
        simp [insert, hb, h]
      rw [e]
      dsimp only
      rw [ih { f with written := f.written ++ s, room := f.room - s.length } hb]
      unfold insert
      simp only [hb, Bool.false_eq_true, if_false, List.flatten_cons, List.length_append]
      by_cases h2 : ss.flatten.length ≤ f.room - s.length
      · rw [if_pos h2, if_pos (by omega)]
        simp [Nat.sub_sub]
      · have h3 : ¬ s.length + ss.flatten.length ≤ f.room := by omega
        rw [if_neg h2, if_neg h3, List.take_append, List.take_of_length_le h, List.append_assoc]
    · have e : f.insert s = ({ f with written := f.written ++ s.take f.room, room := 0, bad := true },
          if f.throws then .error .ioFailure else .ok ()) := by
        simp [insert, hb, h]
      have e2 : f.insert (s :: ss).flatten =
          ({ f with written := f.written ++ s.take f.room, room := 0, bad := true },
            if f.throws then .error .ioFailure else .ok ()) := by
        unfold insert
        simp only [hb, Bool.false_eq_true, if_false, List.flatten_cons, List.length_append]
        have h3 : ¬ s.length + ss.flatten.length ≤ f.room := by omega
        rw [if_neg h3, List.take_append_of_le_length (by omega)]
      rw [e, e2]
      cases ht : f.throws with
      | true => rfl
      | false =>
        simp only [Bool.false_eq_true, if_false]
        have : ∀ (g : OStream), g.bad = true → g.insertAll ss = (g, .ok ()) := by
          intro g hg
          clear ih e e2 h
          induction ss with
          | nil => rfl
          | cons a as ih => simp [insertAll, insert, hg, ih]
        rw [this _ rfl]

end OStream

/-- The texts cut to what the devices take. -/
def Spec.cutFiles (d : Devices) (fs : List (Str × Str)) : List (Str × Str) :=
  fs.map fun f => (f.1, cut (d.file f.1) f.2)

/-- A list in pieces, cut. -/
theorem take_pieces (n : ℕ) (s : Str) (ss : List Str) :
    s.take n ++ ss.flatten.take (n - s.length) = (s :: ss).flatten.take n := by
  rw [List.flatten_cons, List.take_append]

theorem perform_fits (d : Devices) (r : Cpp Nat) (es : List Effect)
    (h : ∀ f ∈ curvesOf es, f.2.length ≤ d.file f.1) (st : Streams) (ho : st.out.Spent) (he : st.err.Spent) :
    Streams.perform d r st es =
      ⟨st.out.written ++ (outsOf es).flatten.take st.out.room, st.err.written ++ (errsOf es).flatten.take st.err.room,
        st.files ++ cutFiles d (filesOf es), r⟩ := by
  induction es generalizing st with
  | nil => simp [Streams.perform, Streams.stop, cutFiles]
  | cons e es ih =>
    cases e with
    | out s =>
      rw [Streams.perform, ih (fun f hf => h f hf) { st with out := (st.out.insert s).1 }
        (OStream.insert_spent ho s) he]
      simp only [OStream.insert_written ho, OStream.insert_room ho, outsOf_out, errsOf_out, filesOf_out,
        List.append_assoc, take_pieces]
    | err s =>
      rw [Streams.perform, ih (fun f hf => h f hf) { st with err := (st.err.insert s).1 } ho
        (OStream.insert_spent he s)]
      simp only [OStream.insert_written he, OStream.insert_room he, outsOf_err, errsOf_err, filesOf_err,
        List.append_assoc, take_pieces]
    | file n s =>
      rw [Streams.perform, ih (fun f hf => h f hf)
        { st with files := st.files ++ [(n, ((OStream.new (d.file n) false).insert s).1.written)] } ho he]
      simp [OStream.insert_new, cutFiles, cut]
    | curve n s =>
      have hf : s.length ≤ d.file n := h (n, s) (by simp)
      rw [Streams.perform]
      cases hi : (OStream.new (d.file n) true).insert s with
      | mk f x =>
        have e2 := OStream.insert_fits (d.file n) true hf
        have e1 := OStream.insert_new (d.file n) true s
        rw [hi] at e1 e2
        simp only at e1 e2
        subst e2
        dsimp only
        rw [ih (fun f hf => h f (by simp [hf])) { st with files := st.files ++ [(n, f.written)] } ho he]
        simp [e1, cutFiles, cut]

theorem perform_stops (d : Devices) (r : Cpp Nat) (es : List Effect)
    (h : ¬ ∀ f ∈ curvesOf es, f.2.length ≤ d.file f.1) (st : Streams) (ho : st.out.Spent) (he : st.err.Spent) :
    (Streams.perform d r st es).result = .error .ioFailure ∧
    (Streams.perform d r st es).out <+: st.out.written ++ (outsOf es).flatten.take st.out.room ∧
    (Streams.perform d r st es).err <+: st.err.written ++ (errsOf es).flatten.take st.err.room ∧
    (Streams.perform d r st es).files <+: st.files ++ cutFiles d (filesOf es) := by
  induction es generalizing st with
  | nil => exact absurd (by simp) h
  | cons e es ih =>
    cases e with
    | out s =>
      have := ih (fun h' => h fun f hf => h' f hf) { st with out := (st.out.insert s).1 }
        (OStream.insert_spent ho s) he
      rw [Streams.perform]
      simpa only [OStream.insert_written ho, OStream.insert_room ho, outsOf_out, errsOf_out, filesOf_out,
        List.append_assoc, take_pieces] using this
    | err s =>
      have := ih (fun h' => h fun f hf => h' f hf) { st with err := (st.err.insert s).1 } ho
        (OStream.insert_spent he s)
      rw [Streams.perform]
      simpa only [OStream.insert_written he, OStream.insert_room he, outsOf_err, errsOf_err, filesOf_err,
        List.append_assoc, take_pieces] using this
    | file n s =>
      have := ih (fun h' => h fun f hf => h' f hf)
        { st with files := st.files ++ [(n, ((OStream.new (d.file n) false).insert s).1.written)] } ho he
      rw [Streams.perform]
      simpa [OStream.insert_new, cutFiles, cut] using this
    | curve n s =>
      rw [Streams.perform]
      cases hi : (OStream.new (d.file n) true).insert s with
      | mk f x =>
        have e1 := OStream.insert_new (d.file n) true s
        rw [hi] at e1
        simp only at e1
        by_cases hf : s.length ≤ d.file n
        · have e2 := OStream.insert_fits (d.file n) true hf
          rw [hi] at e2
          simp only at e2
          subst e2
          dsimp only
          have := ih (fun h' => h fun f hf' => by
            rcases List.mem_cons.1 hf' with rfl | hf'
            · exact hf
            · exact h' f hf') { st with files := st.files ++ [(n, f.written)] } ho he
          simpa [e1, cutFiles, cut] using this
        · have e2 := OStream.insert_throws (d.file n) hf
          rw [hi] at e2
          simp only at e2
          subst e2
          refine ⟨rfl, List.prefix_append _ _, List.prefix_append _ _, ?_⟩
          simp [Streams.stop, e1, cutFiles, cut]

end Kws
