#!/usr/bin/env python3
"""Write lean/Verif.lean: one import per module."""
import pathlib
root = pathlib.Path(__file__).resolve().parent.parent / "lean"
mods = sorted(str(f.relative_to(root))[:-5].replace("/", ".") for f in (root / "Verif").rglob("*.lean"))
(root / "Verif.lean").write_text("".join(f"import {m}\n" for m in mods))
