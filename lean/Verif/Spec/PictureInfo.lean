import Verif.Model.Picture
/-!
# Specification: PNG and JPEG images
-/
namespace Lofty.Picture

/-- A chunk of a PNG image: type, content and check sum. -/
structure PngChunk where
  ty : Bytes
  content : Bytes
  crc : Bytes

/-- A type and a check sum of four bytes, and a size that PNG allows. -/
def PngChunk.Ok (c : PngChunk) : Prop := c.ty.length = 4 ∧ c.crc.length = 4 ∧ c.content.length < 2 ^ 31

/-- Its bytes. -/
def PngChunk.bytes (c : PngChunk) : Bytes := beBytes 4 c.content.length ++ (c.ty ++ (c.content ++ c.crc))

/-- A PNG image: signature, `IHDR` (with three bytes of methods and the check sum in `tail`), further chunks, further
bytes. -/
def png (width height : Nat) (depth colorType : UInt8) (tail : Bytes) (cs : List PngChunk) (rest : Bytes) : Bytes :=
  [0x89, 0x50, 0x4E, 0x47, 0x0D, 0x0A, 0x1A, 0x0A] ++ (beBytes 4 13 ++ (ascii "IHDR" ++ (beBytes 4 width ++ (beBytes 4 height ++
    (depth :: colorType :: (tail ++ (cs.flatMap PngChunk.bytes ++ rest)))))))

/-- Samples per pixel: greyscale, true colour, palette, greyscale with alpha, true colour with alpha. -/
def pngSamples (colorType : UInt8) : Nat :=
  if colorType = 2 then 3 else if colorType = 4 then 2 else if colorType = 6 then 4 else 1

/-- The number of colours in the first palette; only for images with palette. -/
def pngColors (colorType : UInt8) (cs : List PngChunk) : Nat :=
  if colorType = 3 then ((cs.find? fun c => c.ty = ascii "PLTE").map fun c => c.content.length / 3).getD 0 else 0

/-- A segment of a JPEG image: marker and content. -/
structure JpegSeg where
  marker : UInt8
  content : Bytes

/-- Its size fits. -/
def JpegSeg.Ok (s : JpegSeg) : Prop := s.content.length + 2 < 2 ^ 16

/-- Its bytes. -/
def JpegSeg.bytes (s : JpegSeg) : Bytes := 0xFF :: s.marker :: (beBytes 2 (s.content.length + 2) ++ s.content)

/-- The content of a frame header. -/
def jpegFrame (precision : UInt8) (height width : Nat) (components : UInt8) (rest : Bytes) : Bytes :=
  precision :: (beBytes 2 height ++ (beBytes 2 width ++ (components :: rest)))

/-- A JPEG image: the segments and further bytes. -/
def jpeg (segs : List JpegSeg) (rest : Bytes) : Bytes := 0xFF :: 0xD8 :: (segs.flatMap JpegSeg.bytes ++ rest)

/-- A baseline or progressive frame. -/
def IsFrame (m : UInt8) : Prop := m = 0xC0 ∨ m = 0xC2

end Lofty.Picture
