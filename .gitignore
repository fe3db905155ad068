.lake/
build/
*.olean
